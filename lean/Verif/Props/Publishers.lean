import Verif.Spec.Publishers
import Mathlib.Data.List.NodupEquivFin
/-!
# C120: a subscriber of many publishers
-/
namespace MsgRs.Props
open MsgRs Spec Sub

variable {A I : Type} [DecidableEq A] [DecidableEq I] {L : Lossy} {D : Decompressors}

theorem view_bySub (i : I) (H : List (ManyAct I A)) : subPart (pubView i H) = bySub H := by
  unfold subPart pubView bySub
  rw [List.filterMap_filterMap]
  congr 1
  funext x
  cases x with
  | pub j a =>
    by_cases h : j = i <;> simp [pubViewAct, h, NetAct.atSub, ManyAct.bySub]
  | sub a => rfl

/-- The element number `n`, if it is kept, is in the filtered list at the number of the kept ones before it. -/
theorem filter_rank {α : Type} (p : α → Bool) : ∀ (l : List α) (n : Nat) (x : α), l[n]? = some x → p x = true →
    (l.filter p)[(l.take n).countP p]? = some x
  | [], n, x, h, _ => by simp at h
  | y :: l, 0, x, h, hp => by
    simp only [List.getElem?_cons_zero, Option.some.injEq] at h
    subst h
    simp [hp]
  | y :: l, n + 1, x, h, hp => by
    have ih := filter_rank p l n x (by simpa using h) hp
    by_cases hy : p y = true
    · simp [hy, ih]
    · simp [hy, ih]

theorem rank_lt {α : Type} (p : α → Bool) {l : List α} {n n' : Nat} {x : α} (h : l[n]? = some x) (hp : p x = true) (hlt : n < n') :
    (l.take n).countP p < (l.take n').countP p := by
  have h1 : l.take (n + 1) = l.take n ++ [x] := by
    rw [List.take_add_one, h]; rfl
  have h2 : (l.take (n + 1)).countP p ≤ (l.take n').countP p :=
    List.Sublist.countP_le (List.take_sublist_take_left (by omega))
  rw [h1, List.countP_append] at h2
  simp [hp] at h2
  omega

/-- C120: any number of publishers and a subscriber that connects to them, each publisher at its own address; any history of all of them, any number of connections one after the other.
Every message the user has, or has waiting, from one of these publishers comes from one call of `publish` or `try_publish` of that publisher, with its topic and payload; no two messages come
from the same call, and those of one publisher are in the order of its calls. -/
theorem C120_own_publication (L : Lossy) (D : Decompressors) (max : I → Option Nat) (authn : I → Option (Bytes → Bool)) (boundary minCompress bufferSize : I → Nat)
    (comp : I → Option Compressor) (hcomp : ∀ i c, comp i = some c → Spec.Inverts D c) (opts : Options) (now : Nat) (d0 d : Driver A) (h0 : Driver.new opts now = .ok d0)
    (H : List (ManyAct I A)) (addr : I → A) (hinj : ∀ i j, addr i = addr j → i = j) (peer : I → Nat → Nat)
    (hnet : ∀ i, OneNet L D (Pub.Server.new (max i) (authn i) (boundary i) (minCompress i) (bufferSize i) (comp i)) d0 (addr i) (peer i) (pubView i H))
    (hsmall : ∀ i, ∀ c ∈ pubCalls (pubPart (pubView i H)), ∀ m, c.prepare (minCompress i) (comp i) = some m → m.payload.length < 2 ^ 32)
    (hr : d0.run L D (bySub H) = .ok d) :
    ∃ origin : Nat → Option (I × Nat),
      (∀ n m i, (d.received ++ d.inbox)[n]? = some m → m.source = addr i →
        ∃ k c, origin n = some (i, k) ∧ (pubCalls (pubPart (pubView i H)))[k]? = some c ∧ m.topic = c.topic ∧ m.payload = c.payload) ∧
      ∀ n n' i k k', n < n' → origin n = some (i, k) → origin n' = some (i, k') → k < k' := by
  classical
  have hsub : ∀ i, ∃ f : ℕ ↪o ℕ, ∀ ix : ℕ, ((fromAddr (addr i) (d.received ++ d.inbox)).map fun m => (m.topic, m.payload))[ix]? =
      ((pubCalls (pubPart (pubView i H))).map fun c => (c.topic, c.payload))[f ix]? := by
    intro i
    exact List.sublist_iff_exists_orderEmbedding_getElem?_eq.1 (C110_reconnects L D (max i) (authn i) (boundary i) (minCompress i) (bufferSize i) (comp i) (hcomp i) opts now d0 d h0
      (pubView i H) (addr i) (peer i) (hnet i) (hsmall i) (by rw [view_bySub]; exact hr))
  obtain ⟨f, hf⟩ := Classical.axiomOfChoice hsub
  generalize d.received ++ d.inbox = l at *
  let rank : I → Nat → Nat := fun i n => (l.take n).countP fun m => decide (m.source = addr i)
  let whose : Nat → Option I := fun n => if hx : ∃ i m, l[n]? = some m ∧ m.source = addr i then some hx.choose else none
  have whose_eq : ∀ (n : Nat) (m : InMsg A) (i : I), l[n]? = some m → m.source = addr i → whose n = some i := by
    intro n m i h1 h2
    have hx : ∃ i m, l[n]? = some m ∧ m.source = addr i := ⟨i, m, h1, h2⟩
    simp only [whose, dif_pos hx]
    obtain ⟨m', g1, g2⟩ := hx.choose_spec
    rw [h1] at g1
    cases g1
    exact congrArg some (hinj _ _ (g2.symm.trans h2))
  have of_whose : ∀ (n : Nat) (i : I), whose n = some i → ∃ m, l[n]? = some m ∧ m.source = addr i := by
    intro n i h
    by_cases hx : ∃ i m, l[n]? = some m ∧ m.source = addr i
    · simp only [whose, dif_pos hx, Option.some.injEq] at h
      obtain ⟨m', g1, g2⟩ := hx.choose_spec
      exact ⟨m', g1, by rw [← h]; exact g2⟩
    · simp only [whose, dif_neg hx] at h
      cases h
  refine ⟨fun n => (whose n).map fun i => (i, f i (rank i n)), ?_, ?_⟩
  · intro n m i h1 h2
    have hk := hf i (rank i n)
    have hm : (fromAddr (addr i) l)[rank i n]? = some m := filter_rank _ l n m h1 (by simp [h2])
    rw [List.getElem?_map, hm, List.getElem?_map] at hk
    obtain ⟨c, hc, e⟩ := Option.map_eq_some_iff.1 hk.symm
    simp only [Prod.mk.injEq] at e
    exact ⟨f i (rank i n), c, by simp [whose_eq n m i h1 h2], hc, e.1.symm, e.2.symm⟩
  · intro n n' i k k' hlt h1 h2
    obtain ⟨j, g1, g2⟩ := Option.map_eq_some_iff.1 h1
    obtain ⟨j', g3, g4⟩ := Option.map_eq_some_iff.1 h2
    simp only [Prod.mk.injEq] at g2 g4
    obtain ⟨rfl, rfl⟩ := g2
    obtain ⟨rfl, rfl⟩ := g4
    obtain ⟨m, q1, q2⟩ := of_whose n j' g1
    exact (f j').strictMono (rank_lt _ q1 (by simp [q2]) hlt)

/-- C120, topics: in the same setting, if the user's patterns are well-formed (`>` only at the end), every message the user has, or has waiting, from one of these publishers is on a topic matched by a
pattern for which a call of `subscribe` or `try_subscribe` returned `Ok(())`. -/
theorem C120_only_subscribed (L : Lossy) (D : Decompressors) (max : I → Option Nat) (authn : I → Option (Bytes → Bool)) (boundary minCompress bufferSize : I → Nat)
    (comp : I → Option Compressor) (opts : Options) (now : Nat) (d0 d : Driver A) (h0 : Driver.new opts now = .ok d0)
    (H : List (ManyAct I A)) (addr : I → A) (peer : I → Nat → Nat)
    (hnet : ∀ i, OneNet L D (Pub.Server.new (max i) (authn i) (boundary i) (minCompress i) (bufferSize i) (comp i)) d0 (addr i) (peer i) (pubView i H))
    (hsmall : ∀ i, ∀ c ∈ pubCalls (pubPart (pubView i H)), ∀ m, c.prepare (minCompress i) (comp i) = some m → m.payload.length < 2 ^ 32)
    (hr : d0.run L D (bySub H) = .ok d)
    (hwf : ∀ op ∈ (promises L D d0 (bySub H)).filterMap Command.op, Spec.WellFormed op.pattern)
    (m : InMsg A) (hm : m ∈ d.received ++ d.inbox) (i : I) (hmi : m.source = addr i) :
    ∃ p, Spec.Matches p m.topic ∧ Command.subscribe p ∈ promises L D d0 (bySub H) := by
  have hreach : Reach L D d := ⟨opts, now, d0, _, h0, hr⟩
  have hie := hreach.inv
  have hcmd := C105_history L D opts now d0 d _ h0 hr
  obtain ⟨hatt, hsubl⟩ := C50_attributed_in_order L D d hreach
  have hma := hatt m hm
  obtain ⟨s, hs⟩ : ∃ s, d.sessions[m.conn]? = some s := ⟨_, List.getElem?_eq_getElem (by rw [← hie.len]; exact (List.getElem?_eq_some_iff.1 hma).1)⟩
  have hm' : m ∈ ofConn m.conn (d.received ++ d.inbox) := List.mem_filter.2 ⟨hm, by simp⟩
  rcases (hnet i).carries (pubView i H) [] d (by simp) (by rw [view_bySub]; exact hr) m.conn s hs (by rw [hma, hmi]) with hno | ⟨x, hx, hconn⟩
  · exfalso
    have hg := got_nothing (hie.sess m.conn s hs) hno
    have := hsubl m.conn s hs
    rw [hg] at this
    have hnil := List.eq_nil_of_sublist_nil this
    rw [List.map_eq_nil_iff] at hnil
    rw [hnil] at hm'
    cases hm'
  · obtain ⟨pre, e, post, h1, -, acts₁, acts₂, h3, h4, h5⟩ :=
      session_history L (max i) (authn i) (boundary i) (minCompress i) (bufferSize i) (comp i) (pubPart (pubView i H)) (peer i m.conn) x hx
    obtain ⟨S, -, -, key⟩ := C61_only_subscribed L D (bufferSize i) acts₁ acts₂ (peer i m.conn) (boundary i) x.input x.task h3 h4 (by
        intro y hy
        rw [h5] at hy
        obtain ⟨c, hc1, hc2⟩ := List.mem_filterMap.1 hy
        refine hsmall i c ?_ y hc2
        rw [h1]
        exact List.mem_of_mem_drop hc1) d hreach m.conn s hs hconn (by
        intro op hop
        refine hwf op ?_
        rw [← hcmd, List.filterMap_append]
        exact List.mem_append_left _ hop)
    obtain ⟨p, k, g1, g2, -⟩ := key m hm'
    exact ⟨p, g1, by rw [← hcmd]; exact List.mem_append_left _ g2⟩

/-! ## A case: two publishers -/

namespace Both
open E2E

/-- The two ends at a moment: what `OneNet` asks of it (`fa`: the addresses of all connections there will be). -/
def momentOk (a : Nat) (peer : Nat → Nat) (fa : List Nat) (s : Pub.Server Nat) (d : Driver Nat) : Bool :=
  ((List.range d.sessions.length).all fun u => match d.sessions[u]? with
    | none => true
    | some t => decide (d.addrs[u]? ≠ some a) || decide (readSoFar t.input0 t.input = []) || match s.ses[peer u]? with
      | none => false
      | some x => decide (readSoFar t.input0 t.input <+: x.task.sess.wr.wire ++ x.task.sess.wr.buf) &&
          decide (readSoFar x.input x.task.sess.input <+: t.wr.wire ++ t.wr.buf)) &&
  (List.range fa.length).all fun u => decide (fa[u]? ≠ some a) || decide (s.ses.length ≤ peer u) || decide (u < d.addrs.length) ||
    (decide (a ∈ d.tasks) && (List.range u).all fun v => decide (fa[v]? ≠ some a) || decide (v < d.addrs.length))

def netOk (a : Nat) (peer : Nat → Nat) (fa : List Nat) : Pub.Server Nat → Driver Nat → List (NetAct Nat) → Bool
  | s, d, acts => momentOk a peer fa s d && match acts with
    | [] => decide (d.addrs = fa)
    | .pub x :: as => netOk a peer fa (s.act Lossy.strict x) d as
    | .sub x :: as => match d.act Lossy.strict noDec x with
      | .ok d => netOk a peer fa s d as
      | .panic => false

theorem netOk_spec (a : Nat) (peer : Nat → Nat) (fa : List Nat) (H : List (NetAct Nat)) : ∀ (s : Pub.Server Nat) (d : Driver Nat), netOk a peer fa s d H = true →
    (∀ pre suf e, H = pre ++ suf → d.run Lossy.strict noDec (subPart pre) = .ok e → momentOk a peer fa (s.run Lossy.strict (pubPart pre)) e = true) ∧
    ∃ e, d.run Lossy.strict noDec (subPart H) = .ok e ∧ e.addrs = fa := by
  induction H with
  | nil =>
    intro s d h
    unfold netOk at h
    simp only [Bool.and_eq_true] at h
    refine ⟨?_, d, rfl, of_decide_eq_true h.2⟩
    intro pre suf e hps hr
    have : pre = [] := (List.append_eq_nil_iff.1 hps.symm).1
    subst this
    cases hr
    exact h.1
  | cons c H ih =>
    intro s d h
    unfold netOk at h
    simp only [Bool.and_eq_true] at h
    obtain ⟨h0, h1⟩ := h
    cases c with
    | pub x =>
      simp only at h1
      obtain ⟨g1, g2⟩ := ih _ _ h1
      refine ⟨?_, g2⟩
      intro pre suf e hps hr
      cases pre with
      | nil => cases hr; exact h0
      | cons y pre =>
        simp only [List.cons_append, List.cons.injEq] at hps
        obtain ⟨rfl, hps⟩ := hps
        exact g1 pre suf e hps hr
    | sub x =>
      simp only at h1
      cases hx : d.act Lossy.strict noDec x with
      | panic => rw [hx] at h1; cases h1
      | ok d' =>
        rw [hx] at h1
        obtain ⟨g1, e', g2, g3⟩ := ih _ _ h1
        have hrun : ∀ l, d.run Lossy.strict noDec (subPart (.sub x :: l)) = d'.run Lossy.strict noDec (subPart l) := by
          intro l
          show d.run Lossy.strict noDec (x :: subPart l) = _
          rw [Driver.run, hx]
          rfl
        refine ⟨?_, e', by rw [hrun]; exact g2, g3⟩
        intro pre suf e hps hr
        cases pre with
        | nil => cases hr; exact h0
        | cons y pre =>
          simp only [List.cons_append, List.cons.injEq] at hps
          obtain ⟨rfl, hps⟩ := hps
          rw [hrun] at hr
          exact g1 pre suf e hps hr

theorem netOk_oneNet {a : Nat} {peer : Nat → Nat} {fa : List Nat} {H : List (NetAct Nat)} {srv : Pub.Server Nat} {d0 : Driver Nat} (hk1 : netOk a peer fa srv d0 H = true) :
    OneNet Lossy.strict noDec srv d0 a peer H := by
  obtain ⟨g1, d, g2, g3⟩ := netOk_spec _ _ _ _ _ _ hk1
  refine ⟨?_, ?_⟩
  · intro pre suf e hps hr u t ht hau
    have := g1 pre suf e hps hr
    unfold momentOk at this
    simp only [Bool.and_eq_true] at this
    have := List.all_eq_true.1 this.1 u (List.mem_range.2 (List.getElem?_eq_some_iff.1 ht).1)
    rw [ht] at this
    simp only [Bool.or_eq_true] at this
    rcases this with (h | h) | h
    · exact absurd hau (of_decide_eq_true h)
    · exact .inl (of_decide_eq_true h)
    · right
      cases hx : (srv.run Lossy.strict (pubPart pre)).ses[peer u]? with
      | none => rw [hx] at h; cases h
      | some x =>
        rw [hx] at h
        simp only [Bool.and_eq_true] at h
        exact ⟨x, rfl, of_decide_eq_true h.1, of_decide_eq_true h.2⟩
  · intro pre suf e df hps hr hdf u hu hpu
    rw [g2] at hdf
    cases hdf
    rw [g3] at hu
    have := g1 pre suf e hps hr
    unfold momentOk at this
    simp only [Bool.and_eq_true] at this
    have := List.all_eq_true.1 this.2 u (List.mem_range.2 (List.getElem?_eq_some_iff.1 hu).1)
    simp only [Bool.or_eq_true, Bool.and_eq_true] at this
    rcases this with ((h | h) | h) | ⟨h1, h2⟩
    · exact absurd hu (of_decide_eq_true h)
    · have := of_decide_eq_true h
      omega
    · exact .inl (of_decide_eq_true h)
    · refine .inr ⟨of_decide_eq_true h1, ?_⟩
      intro v hv hav
      have := List.all_eq_true.1 h2 v (List.mem_range.2 hv)
      simp only [Bool.or_eq_true] at this
      rcases this with h | h
      · rw [g3] at hav
        exact absurd hav (of_decide_eq_true h)
      · exact of_decide_eq_true h

/-- The frame with the number `n` and the payload `[x]`, on the topic `a`. -/
def frame (n : Nat) (x : UInt8) : Bytes := PubSub.encode ⟨⟨0, 1, [97], 7, UInt32.ofNat n, 1⟩, [x]⟩

def accept (i : Bool) : List (ManyAct Bool Nat) :=
  [.pub i (.driver ⟨none, none, some Twice.client⟩), .pub i (.driver ⟨none, some (0, true), none⟩), .pub i (.driver ⟨none, none, none⟩)]

def serve (i : Bool) : List (ManyAct Bool Nat) := List.replicate 5 (.pub i (.session 0 E2E.env))

def use (u : Nat) : List (ManyAct Bool Nat) := List.replicate 4 (.sub (.session u eager))

/-- Both publishers publish `1`, the second also `2`. -/
def hist : List (ManyAct Bool Nat) :=
  [.pub false (.bind some [80]), .pub true (.bind some [81]), .sub (.call (.subscribe ['a'])), .sub (.call (.connect 5)), .sub (.call (.connect 6))] ++
  List.replicate 4 (.sub (.iter ⟨[], [], none⟩)) ++ accept false ++ accept true ++
  [.sub (.iter ⟨[5, 6], [], conn [.pending, .pending, .pending, .pending, .data (frame 0 1)]⟩),
   .sub (.iter ⟨[5, 6], [], conn [.pending, .pending, .pending, .pending, .data (frame 0 1 ++ frame 1 2)]⟩)] ++ use 0 ++ use 1 ++ serve false ++ serve true ++
  [.pub true (.publish ['a'] [1]), .pub false (.publish ['a'] [1]), .pub true (.publish ['a'] [2])] ++ serve false ++ serve true ++ use 0 ++ use 1 ++
  List.replicate 4 (.sub (.iter ⟨[5, 6], [], none⟩)) ++ [.sub (.call .recv)]

def addr : Bool → Nat
  | false => 5
  | true => 6

theorem both_ok : (match (Driver.new { } 0 : R (Driver Nat)) with
    | .ok d => netOk 5 (fun _ => 0) [5, 6] (Pub.Server.new none none 8192 10 8 none) d (pubView false hist) &&
      netOk 6 (fun _ => 0) [5, 6] (Pub.Server.new none none 8192 10 8 none) d (pubView true hist) && (match d.run Lossy.strict noDec (bySub hist) with
      | .ok e => decide ((e.received ++ e.inbox).map (fun m : InMsg Nat => (m.source, m.payload)) = [(5, [1]), (6, [1]), (6, [2])]) &&
          decide ((promises Lossy.strict noDec d (bySub hist)).filterMap Command.op = [Spec.Op.sub ['a']])
      | .panic => false)
    | .panic => false) = true := by decide +kernel

/-- All hypotheses of `C120_own_publication` and `C120_only_subscribed` are met by this history, in which the user gets the same message from each of two publishers, and one more from the second. -/
example : ∃ d0 d : Driver Nat, Driver.new { } 0 = .ok d0 ∧ (∀ i j, addr i = addr j → i = j) ∧
    (∀ i, OneNet Lossy.strict noDec (Pub.Server.new none none 8192 10 8 none) d0 (addr i) (fun _ => 0) (pubView i hist)) ∧
    (∀ i, ∀ c ∈ pubCalls (pubPart (pubView i hist)), ∀ m, c.prepare 10 none = some m → m.payload.length < 2 ^ 32) ∧
    d0.run Lossy.strict noDec (bySub hist) = .ok d ∧
    (∀ op ∈ (promises Lossy.strict noDec d0 (bySub hist)).filterMap Command.op, Spec.WellFormed op.pattern) ∧
    (d.received ++ d.inbox).map (fun m => (m.source, m.payload)) = [(5, [1]), (6, [1]), (6, [2])] := by
  have hk := both_ok
  cases h0 : (Driver.new { } 0 : R (Driver Nat)) with
  | panic => rw [h0] at hk; cases hk
  | ok d0 =>
    rw [h0] at hk
    simp only [Bool.and_eq_true] at hk
    obtain ⟨⟨hk1, hk2⟩, hk3⟩ := hk
    cases hr : d0.run Lossy.strict noDec (bySub hist) with
    | panic => rw [hr] at hk3; cases hk3
    | ok d =>
      rw [hr] at hk3
      simp only [Bool.and_eq_true] at hk3
      refine ⟨d0, d, rfl, by decide, ?_, ?_, hr, ?_, of_decide_eq_true hk3.1⟩
      · intro i
        cases i
        · exact netOk_oneNet hk1
        · exact netOk_oneNet hk2
      · intro i c hc m hm
        have key : ∀ i, ∀ c ∈ pubCalls (pubPart (pubView i hist)), ((c.prepare 10 none).map fun m => m.payload.length) = some 1 := by decide +kernel
        have this := key i c hc
        rw [hm] at this
        have : m.payload.length = 1 := by simpa using this
        rw [this]
        decide
      · intro op hop
        rw [of_decide_eq_true hk3.2] at hop
        simp only [List.mem_singleton] at hop
        subst hop
        unfold Spec.WellFormed
        decide

end Both

end MsgRs.Props
