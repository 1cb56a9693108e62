import Verif.Proofs.RepSocket
import Verif.Props.Rep
/-!
# The reply socket as its user sees it: `respond`, binding, dropping
-/
namespace MsgRs.Props
open MsgRs Rep
variable {A : Type} [DecidableEq A]

/-- A reply socket some history leads to. -/
def RepReach (D : Decompressors) (max : Option Nat) (authn : Option (Bytes → Bool)) (comp : Option Compressor) (s : Rep.Socket A) : Prop :=
  ∃ acts, (Rep.Socket.new max authn comp).run D acts = .ok s

theorem RepReach.inv {D max authn comp} {s : Rep.Socket A} (h : RepReach D max authn comp s) : SockInv D s := by
  obtain ⟨acts, hr⟩ := h
  obtain ⟨s', h1, h2⟩ := (SockInv.new D max authn comp : SockInv D (Rep.Socket.new max authn comp : Rep.Socket A)).run acts
  rw [hr] at h1
  cases h1
  exact h2

/-- No history makes the background task panic. -/
theorem C83_no_panic (D : Decompressors) (max authn comp) (acts : List (Rep.SAct A)) :
    ∃ s, (Rep.Socket.new max authn comp : Rep.Socket A).run D acts = .ok s := by
  obtain ⟨s', h1, -⟩ := (SockInv.new D max authn comp : SockInv D (Rep.Socket.new max authn comp : Rep.Socket A)).run acts
  exact ⟨s', h1⟩

/-! ## C81 -/

omit [DecidableEq A] in
theorem own_unique {d : Driver A} (h : OwnInv d) {p q : Peer A} {x : Nat} (hp : p ∈ d.peers) (hq : q ∈ d.gone)
    (hx : x ∈ p.handles) : x ∉ q.handles := by
  intro hxq
  have hn : (d.conns.flatMap Peer.handles).Nodup := (h.nodup_iff).2 List.nodup_range
  rw [Driver.conns, List.flatMap_append, List.nodup_append] at hn
  exact hn.2.2 x (List.mem_flatMap.2 ⟨p, hp, hx⟩) x (List.mem_flatMap.2 ⟨q, hq, hxq⟩) rfl

/-- C81: whatever happened before, a request the application holds was read from exactly one connection, and `respond` on it returns `Ok`
if that connection is still being served, and an error if it is gone (closed by the client, failed, or replaced by another client with the same
address). -/
theorem C81_respond_ok (D : Decompressors) (max authn comp) (s : Rep.Socket A) (h : RepReach D max authn comp s) (d : Driver A)
    (hd : s.drv = some d) (i : Nat) (r : Request A) (hi : d.held[i]? = some r) :
    ∃ p ∈ d.conns, ∃ m, (r.handle, m) ∈ p.issued ∧ tryDecompress D m.header.ctype m.payload = some r.msg ∧ r.source = p.addr ∧
      (d.respondOk i = some true ↔ p ∈ d.peers) ∧ (d.respondOk i = some false ↔ p ∈ d.gone) := by
  obtain ⟨hv, ho, -⟩ := h.inv.drv d hd
  have hheld := List.mem_of_getElem? hi
  have htaken : r ∈ d.taken := hv.held.mem hheld
  have htk : r ∈ d.taken ++ d.inbox := by simp [htaken]
  have hwait := hv.waiting r (.inl hheld)
  have hlt := hv.handles.2 r.handle (List.mem_map.2 ⟨r, htk, rfl⟩)
  obtain ⟨p, hp, hx⟩ := List.mem_flatMap.1 (ho.mem_iff.2 (List.mem_range.2 hlt))
  obtain ⟨⟨x, m⟩, hm, hxe⟩ := List.mem_map.1 hx
  simp only at hxe
  subst hxe
  have hcore : ∀ q ∈ d.conns, PCore d.comp d.slots d.next q := by
    intro q hq
    simp only [Driver.conns, List.mem_append] at hq
    exact hq.elim (fun hq => (hv.peers q hq).1) (hv.gone q)
  have hxp : r.handle ∈ p.handles := List.mem_map.2 ⟨_, hm, rfl⟩
  have hpeer : p ∈ d.peers → r.handle ∈ p.pend.map (·.1) := by
    intro hpp
    rcases (hcore p hp).done r.handle m hm with h1 | h1 | h1 | ⟨b, h1, -⟩
    · obtain ⟨⟨y, a⟩, hy, hye⟩ := List.mem_map.1 h1
      obtain ⟨rq, b, -, h3, -⟩ := (hcore p hp).answers y a hy
      simp only at hye
      rw [hye, hwait] at h3
      cases h3
    · exact h1
    · rw [hwait] at h1; cases h1
    · rw [hwait] at h1; cases h1
  have hok : d.respondOk i = some true ↔ p ∈ d.peers := by
    simp only [Driver.respondOk, hi, Option.map_some, Option.some.injEq, List.any_eq_true, decide_eq_true_eq]
    constructor
    · rintro ⟨q, hq, hqx⟩
      obtain ⟨⟨y, id⟩, hy, hye⟩ := List.mem_map.1 hqx
      obtain ⟨m', h1, -⟩ := (hcore q (by simp [Driver.conns, hq])).pend y id hy
      simp only at hye
      subst hye
      simp only [Driver.conns, List.mem_append] at hp
      rcases hp with hp | hp
      · exact hp
      · exact absurd hxp (own_unique ho hq hp (List.mem_map.2 ⟨_, h1, rfl⟩))
    · intro hpp
      exact ⟨p, hpp, hpeer hpp⟩
  refine ⟨p, hp, m, hm, ?_, hv.source p hp r.handle m hm r htk rfl, hok, ?_⟩
  · obtain ⟨f, hf⟩ := hv.issued p hp r.handle m hm
    have h1 : (r.handle, r.msg) ∈ deliveredOf d.log := by
      rw [← hv.inbox]
      exact List.mem_map.2 ⟨r, htk, rfl⟩
    obtain ⟨⟨u, y, m', f'⟩, h2, h3⟩ := List.mem_filterMap.1 h1
    cases f' with
    | undecodable => cases h3
    | full => cases h3
    | delivered pl =>
      simp only [Option.some.injEq, Prod.mk.injEq] at h3
      obtain ⟨rfl, rfl⟩ := h3
      have hn : (d.log.map (·.2.1)).Nodup := by rw [hv.log]; exact List.nodup_range
      have := List.nodup_map_inj hn hf h2 rfl
      cases this
      exact hv.delivered _ _ _ _ h2
  · have hb : d.respondOk i = some true ∨ d.respondOk i = some false := by
      simp only [Driver.respondOk, hi, Option.map_some]
      cases d.peers.any fun p => decide (r.handle ∈ p.pend.map (·.1)) <;> simp
    constructor
    · intro hf
      simp only [Driver.conns, List.mem_append] at hp
      rcases hp with hp | hp
      · rw [hok.2 hp] at hf; cases hf
      · exact hp
    · intro hg
      rcases hb with hb | hb
      · exact absurd hxp (own_unique ho (hok.1 hb) hg hxp)
      · exact hb

/-- C81: when `respond` fails, no connection is touched. When it succeeds, the response is ready to be written to
the connection the request came from: its future has been woken and holds the bytes given. -/
theorem C81_respond_effect (D : Decompressors) (max authn comp) (s : Rep.Socket A) (h : RepReach D max authn comp s) (d d' : Driver A)
    (hd : s.drv = some d) (i : Nat) (r : Request A) (hi : d.held[i]? = some r) (b : Bytes) (ha : d.act D (.respond i b) = .ok d') :
    (d.respondOk i = some false → d'.peers = d.peers ∧ d'.gone = d.gone) ∧
    (d.respondOk i = some true → ∃ p' ∈ d'.peers, r.handle ∈ p'.issued.map (·.1) ∧ r.handle ∈ p'.pend.map (·.1) ∧
      r.handle ∈ p'.queue ∧ d'.slots r.handle = .responded b) := by
  obtain ⟨hv, ho, -⟩ := h.inv.drv d hd
  simp only [Driver.act, hi] at ha
  cases ha
  refine ⟨fun hf => ⟨?_, rfl⟩, fun ht => ?_⟩
  · simp only [Driver.respondOk, hi, Option.map_some, Option.some.injEq, List.any_eq_false, decide_eq_true_eq] at hf
    simp only [Driver.complete]
    conv => rhs; rw [← List.map_id d.peers]
    apply List.map_congr_left
    intro p hp
    simp only [Peer.wake, id]
    rw [if_neg (fun hc => hf p hp hc.1)]
  · simp only [Driver.respondOk, hi, Option.map_some, Option.some.injEq, List.any_eq_true, decide_eq_true_eq] at ht
    obtain ⟨p, hp, hx⟩ := ht
    obtain ⟨⟨y, id⟩, hy, hye⟩ := List.mem_map.1 hx
    obtain ⟨m', h1, -⟩ := (hv.peers p hp).1.pend y id hy
    simp only at hye
    subst hye
    refine ⟨p.wake r.handle, List.mem_map.2 ⟨p, hp, rfl⟩, ?_, ?_, ?_, ?_⟩
    · rw [(wake_fields p _).2.2.1]
      exact List.mem_map.2 ⟨_, h1, rfl⟩
    · rw [(wake_fields p _).2.2.2.1]
      exact hx
    · unfold Peer.wake
      by_cases hq : r.handle ∈ p.queue
      · rw [if_neg (fun hc => hc.2 hq)]
        exact hq
      · rw [if_pos ⟨hx, hq⟩]
        simp
    · simp [Driver.complete]

/-- Two clients; the second closes its connection after its request was received: answering the first works, the
second not. -/
example (D : Decompressors) :
    let c : Nat → List ReadAns → Conn Nat := fun u x => ⟨u, some u, ⟨x, [], [], []⟩⟩
    let e : PEnv := ⟨[.ok 100, .ok 1], []⟩
    ∃ s d, (Rep.Socket.new none none none : Rep.Socket Nat).run D [.bind some [7],
      .driver (.accept (c 1 [.data (reqBytes 5 [1]), .pending])), .driver (.ready 0 true),
      .driver (.accept (c 2 [.data (reqBytes 5 [2]), .data []])), .driver (.ready 0 true), .driver (.peer 0 e), .driver (.peer 1 e),
      .next, .next, .driver (.peer 1 e)] = .ok s ∧ s.drv = some d ∧ d.held.map (·.msg) = [[1], [2]] ∧
      d.respondOk 0 = some true ∧ d.respondOk 1 = some false ∧ d.peers.map (·.uid) = [1] ∧ d.gone.map (·.uid) = [2] :=
  ⟨_, _, rfl, rfl, rfl, rfl, rfl, rfl, rfl⟩

/-! ## C82 -/

/-- The action is a call of `bind`. -/
def isBind : Rep.SAct A → Bool
  | .bind _ _ => true
  | _ => false

omit [DecidableEq A] in
theorem act_fresh [DecidableEq A] {D : Decompressors} {s t : Rep.Socket A} (a : Rep.SAct A) (ha : s.act D a = .ok t) (hb : isBind a = false)
    (h1 : s.transport = some none) (h2 : s.drv = none) : t.transport = some none ∧ t.drv = none ∧ t.max = s.max := by
  cases a with
  | bind b as => cases hb
  | next =>
    simp only [Rep.Socket.act, Rep.Socket.pollNext, h2] at ha
    split at ha <;> (cases ha; exact ⟨h1, h2, rfl⟩)
  | driver a => cases a <;> (simp only [Rep.Socket.act, h2] at ha; cases ha; exact ⟨h1, h2, rfl⟩)
  | drop =>
    simp only [Rep.Socket.act] at ha
    split at ha
    · cases ha; exact ⟨h1, h2, rfl⟩
    · cases ha; exact ⟨h1, by simp [h2], rfl⟩

theorem run_fresh {D : Decompressors} (acts : List (Rep.SAct A)) {s t : Rep.Socket A} (hr : s.run D acts = .ok t)
    (hb : ∀ a ∈ acts, isBind a = false) (h1 : s.transport = some none) (h2 : s.drv = none) : t.transport = some none ∧ t.drv = none ∧ t.max = s.max := by
  induction acts generalizing s with
  | nil => cases hr; exact ⟨h1, h2, rfl⟩
  | cons a acts ih =>
    simp only [Rep.Socket.run] at hr
    cases ha : s.act D a with
    | panic => rw [ha] at hr; cases hr
    | ok s1 =>
      rw [ha] at hr
      obtain ⟨k1, k2, k3⟩ := act_fresh a ha (hb a (by simp)) h1 h2
      obtain ⟨j1, j2, j3⟩ := ih hr (fun x hx => hb x (by simp [hx])) k1 k2
      exact ⟨j1, j2, j3.trans k3⟩

theorem act_spent {D : Decompressors} {s t : Rep.Socket A} (a : Rep.SAct A) (ha : s.act D a = .ok t)
    (h1 : s.transport = none) : t.transport = none ∧ t.drv.isSome = s.drv.isSome ∧ t.localAddr = s.localAddr := by
  cases a with
  | bind b as =>
    simp only [Rep.Socket.act, Rep.Socket.tryBind, h1] at ha
    split at ha
    · cases ha; exact ⟨h1, rfl, rfl⟩
    · cases ha; exact ⟨rfl, rfl, rfl⟩
  | next =>
    simp only [Rep.Socket.act, Rep.Socket.pollNext] at ha
    split at ha
    · cases ha; exact ⟨h1, rfl, rfl⟩
    · cases hd : s.drv with
      | none => rw [hd] at ha; cases ha; exact ⟨h1, by simp [hd], rfl⟩
      | some d =>
        simp only [hd] at ha
        cases hib : d.inbox with
        | nil => rw [hib] at ha; cases ha; exact ⟨h1, by simp [hd], rfl⟩
        | cons r rs => rw [hib] at ha; cases ha; exact ⟨h1, rfl, rfl⟩
  | driver a =>
    cases hd : s.drv with
    | none => cases a <;> (simp only [Rep.Socket.act, hd] at ha; cases ha; exact ⟨h1, by simp [hd], rfl⟩)
    | some d =>
      have : ∀ a', (match d.act D a' with | .panic => R.panic | .ok d' => R.ok { s with drv := some d' }) = .ok t →
          t.transport = none ∧ t.drv.isSome = true ∧ t.localAddr = s.localAddr := by
        intro a' hh
        cases hx : d.act D a' with
        | panic => rw [hx] at hh; cases hh
        | ok d' => rw [hx] at hh; cases hh; exact ⟨h1, rfl, rfl⟩
      cases a with
      | recv => cases ha; exact ⟨h1, by simp [hd], rfl⟩
      | peer k e => refine this (.peer k e) ?_; simp only [Rep.Socket.act, hd] at ha; rw [← ha]; cases d.act D (.peer k e) <;> rfl
      | join i => refine this (.join i) ?_; simp only [Rep.Socket.act, hd] at ha; rw [← ha]; cases d.act D (.join i) <;> rfl
      | ready i ok => refine this (.ready i ok) ?_; simp only [Rep.Socket.act, hd] at ha; rw [← ha]; cases d.act D (.ready i ok) <;> rfl
      | accept c => refine this (.accept c) ?_; simp only [Rep.Socket.act, hd] at ha; rw [← ha]; cases d.act D (.accept c) <;> rfl
      | respond i b => refine this (.respond i b) ?_; simp only [Rep.Socket.act, hd] at ha; rw [← ha]; cases d.act D (.respond i b) <;> rfl
      | drop i => refine this (.drop i) ?_; simp only [Rep.Socket.act, hd] at ha; rw [← ha]; cases d.act D (.drop i) <;> rfl
  | drop =>
    simp only [Rep.Socket.act] at ha
    split at ha
    · cases ha; exact ⟨h1, rfl, rfl⟩
    · cases ha; exact ⟨h1, by simp, rfl⟩

theorem run_spent {D : Decompressors} (acts : List (Rep.SAct A)) {s t : Rep.Socket A} (hr : s.run D acts = .ok t)
    (h1 : s.transport = none) : t.transport = none ∧ t.drv.isSome = s.drv.isSome ∧ t.localAddr = s.localAddr := by
  induction acts generalizing s with
  | nil => cases hr; exact ⟨h1, rfl, rfl⟩
  | cons a acts ih =>
    simp only [Rep.Socket.run] at hr
    cases ha : s.act D a with
    | panic => rw [ha] at hr; cases hr
    | ok s1 =>
      rw [ha] at hr
      obtain ⟨k1, k2, k3⟩ := act_spent a ha h1
      obtain ⟨j1, j2, j3⟩ := ih hr k1
      exact ⟨j1, j2.trans k2, j3.trans k3⟩

/-- C82 (partial): a reply socket that has not been bound has no address, panics when polled for requests, and can be bound: that
succeeds iff one of the addresses can be, with the local address of the first such. Once bound it has that address for ever and can be polled for
requests; binding it again panics and changes nothing. Missing: after a failed attempt it cannot be bound any
more (`C82_failed_bind_refuted`). -/
theorem C82_bind_once_partial (D : Decompressors) (max authn comp) (hmax : max.getD 64 < 2 ^ 63) (acts : List (Rep.SAct A)) (s : Rep.Socket A)
    (h : (Rep.Socket.new max authn comp : Rep.Socket A).run D acts = .ok s) :
    ((∀ a ∈ acts, isBind a = false) → s.localAddr = none ∧ s.pollNext = .panic ∧
      ∀ bind addrs, (∃ a ∈ addrs, bind a ≠ none) →
        ∃ t l, s.tryBind bind addrs = .ok (true, t) ∧ t.localAddr = some l ∧
          (∃ pre a post, addrs = pre ++ a :: post ∧ (∀ x ∈ pre, bind x = none) ∧ bind a = some l) ∧
          ∃ r t', t.pollNext = .ok (r, t')) ∧
    (∀ pre bind addrs post, acts = pre ++ .bind bind addrs :: post → (∀ a ∈ pre, isBind a = false) → .drop ∉ pre →
      (∃ a ∈ addrs, bind a ≠ none) → s.localAddr = Pub.bindLoop bind none addrs ∧ s.localAddr ≠ none ∧
        (∀ b' as', s.tryBind b' as' = .panic) ∧ ∃ r t', s.pollNext = .ok (r, t')) := by
  have hloop : ∀ (bind : A → Option A) addrs, (∃ a ∈ addrs, bind a ≠ none) → ∃ l, Pub.bindLoop bind none addrs = some l := by
    intro bind addrs ⟨a, ha, hb⟩
    cases hl : Pub.bindLoop bind none addrs with
    | some l => exact ⟨l, rfl⟩
    | none => exact absurd (bindLoop_none.1 hl a ha) hb
  have hpoll : ∀ t : Rep.Socket A, t.drv.isSome = true → ∃ r t', t.pollNext = .ok (r, t') := by
    intro t ht
    obtain ⟨d, hd⟩ := Option.isSome_iff_exists.1 ht
    unfold Rep.Socket.pollNext
    rw [hd]
    dsimp only
    cases d.inbox with
    | nil => exact ⟨_, _, rfl⟩
    | cons r rs => exact ⟨_, _, rfl⟩
  refine ⟨fun hno => ?_, ?_⟩
  · obtain ⟨h1, h2, hm⟩ := run_fresh acts h hno rfl rfl
    have hmx : ¬ 2 ^ 63 ≤ s.max.getD 64 := by rw [hm]; exact Nat.not_le.2 hmax
    have h3 := (RepReach.inv ⟨acts, h⟩).addr
    rw [h2] at h3
    refine ⟨by simpa using h3, by simp [Rep.Socket.pollNext, h2], fun bind addrs hu => ?_⟩
    obtain ⟨l, hl⟩ := hloop bind addrs hu
    refine ⟨_, l, by simp only [Rep.Socket.tryBind, h1, hl, if_neg hmx]; rfl, rfl, ?_, hpoll _ rfl⟩
    clear hu
    induction addrs with
    | nil => cases hl
    | cons a as ih =>
      simp only [Pub.bindLoop] at hl
      cases hb : bind a with
      | some l' =>
        rw [hb] at hl
        exact ⟨[], a, as, rfl, by simp, by rw [hb]; exact hl⟩
      | none =>
        rw [hb] at hl
        obtain ⟨pre, a', post, e1, e2, e3⟩ := ih hl
        refine ⟨a :: pre, a', post, by rw [e1]; rfl, ?_, e3⟩
        intro x hx
        rcases List.mem_cons.1 hx with rfl | hx
        · exact hb
        · exact e2 x hx
  · intro pre bind addrs post he hno hdrop hu
    obtain ⟨l, hl⟩ := hloop bind addrs hu
    subst he
    rw [sock_run_append] at h
    cases h0 : (Rep.Socket.new max authn comp : Rep.Socket A).run D pre with
    | panic => rw [h0] at h; cases h
    | ok s0 =>
      simp only [h0, R.bind_ok, Rep.Socket.run] at h
      obtain ⟨h1, h2, hm⟩ := run_fresh pre h0 hno rfl rfl
      have hmx : ¬ 2 ^ 63 ≤ s0.max.getD 64 := by rw [hm]; exact Nat.not_le.2 hmax
      have hdr : s0.dropped = false := by
        clear h h1 h2 hno hm hmx
        have : ∀ (as : List (Rep.SAct A)) (s s1 : Rep.Socket A), s.dropped = false → .drop ∉ as → s.run D as = .ok s1 → s1.dropped = false := by
          intro as
          induction as with
          | nil => intro s s1 hs _ hr; cases hr; exact hs
          | cons a as ih =>
            intro s s1 hs hn hr
            simp only [Rep.Socket.run] at hr
            cases ha : s.act D a with
            | panic => rw [ha] at hr; cases hr
            | ok s2 =>
              rw [ha] at hr
              refine ih s2 s1 ?_ (fun hx => hn (by simp [hx])) hr
              cases a with
              | drop => exact absurd (by simp) hn
              | bind b as =>
                simp only [Rep.Socket.act, Rep.Socket.tryBind] at ha
                rw [if_neg (by simp [hs])] at ha
                cases ht : s.transport with
                | none => rw [ht] at ha; cases ha; exact hs
                | some cur =>
                  simp only [ht] at ha
                  cases hb : Pub.bindLoop b cur as with
                  | none => rw [hb] at ha; cases ha; exact hs
                  | some l => simp only [hb] at ha; split at ha <;> (rename_i he; split at he <;> cases he <;> cases ha <;> exact hs)
              | next =>
                simp only [Rep.Socket.act, Rep.Socket.pollNext] at ha
                rw [if_neg (by simp [hs])] at ha
                cases hd : s.drv with
                | none => rw [hd] at ha; cases ha; exact hs
                | some d =>
                  simp only [hd] at ha
                  cases hib : d.inbox with
                  | nil => rw [hib] at ha; cases ha; exact hs
                  | cons r rs => rw [hib] at ha; cases ha; exact hs
              | driver a =>
                cases hd : s.drv with
                | none => cases a <;> (simp only [Rep.Socket.act, hd] at ha; cases ha; exact hs)
                | some d =>
                  have key : ∀ a', (do let d' ← d.act D a'; return { s with drv := some d' } : R (Rep.Socket A)) = .ok s2 → s2.dropped = false := by
                    intro a' hh
                    cases hx : d.act D a' with
                    | panic => rw [hx] at hh; cases hh
                    | ok d' => rw [hx] at hh; cases hh; exact hs
                  cases a with
                  | recv => cases ha; exact hs
                  | peer k e => simp only [Rep.Socket.act, hd] at ha; exact key _ ha
                  | join i => simp only [Rep.Socket.act, hd] at ha; exact key _ ha
                  | ready i ok => simp only [Rep.Socket.act, hd] at ha; exact key _ ha
                  | accept c => simp only [Rep.Socket.act, hd] at ha; exact key _ ha
                  | respond i b => simp only [Rep.Socket.act, hd] at ha; exact key _ ha
                  | drop i => simp only [Rep.Socket.act, hd] at ha; exact key _ ha
        exact this pre _ s0 rfl hdrop h0
      simp only [Rep.Socket.act, hdr, Rep.Socket.tryBind, h1, hl, if_neg hmx] at h
      rw [if_neg (by simp)] at h
      simp only [R.bind_ok] at h
      obtain ⟨k1, k2, k3⟩ := run_spent post h rfl
      have k4 : s.localAddr = some l := k3
      exact ⟨by rw [k4, hl], by simp [k4], fun b' as' => by simp [Rep.Socket.tryBind, k1], hpoll s k2⟩

/-- C82 (refuted as stated): binding fails because the address is taken; when it is free again, binding panics. The same for a publisher. -/
theorem C82_failed_bind_refuted (D : Decompressors) (max authn comp) (minCompress bufferSize : Nat) (hb : 0 < bufferSize) (hbig : bufferSize < 2 ^ 63)
    (a : A) :
    (∃ s, (Rep.Socket.new max authn comp : Rep.Socket A).tryBind (fun _ => none) [a] = .ok (false, s) ∧
      s.tryBind some [a] = .panic ∧ s.pollNext = .panic) ∧
    (∃ s, (Pub.Socket.new minCompress bufferSize comp : Pub.Socket A).tryBind (fun _ => none) [a] = .ok (.error .noValidEndpoints, s) ∧
      s.tryBind some [a] = .panic) := by
  have hb' : ¬ (bufferSize = 0 ∨ 2 ^ 63 ≤ bufferSize) := by omega
  refine ⟨⟨_, rfl, rfl, rfl⟩, ⟨{ minCompress, bufferSize, comp, transport := none, chan := none, localAddr := none }, ?_, ?_⟩⟩
  · exact (if_neg hb').trans rfl
  · simp [Pub.Socket.tryBind]

example (D : Decompressors) : ∃ s, (Rep.Socket.new none none none : Rep.Socket Nat).run D
    [.next, .bind (fun a => if a < 10 then none else some (a + 1)) [3, 20, 30], .next, .bind some [5]] = .ok s ∧ s.localAddr = some 21 :=
  ⟨_, rfl, rfl⟩

/-! ## C83 -/

/-- C83 (refuted as stated): after the socket was dropped, its background task goes on accepting clients and reading their requests,
which are never answered. -/
theorem C83_drop_keeps_serving_refuted (D : Decompressors) :
    let c : Conn Nat := ⟨1, some 1, ⟨[.data (reqBytes 5 [1]), .pending], [], [], []⟩⟩
    let e : PEnv := ⟨[.ok 100, .ok 1], []⟩
    ∃ s d p, (Rep.Socket.new none none none : Rep.Socket Nat).run D [.bind some [7], .drop,
      .driver (.accept c), .driver (.ready 0 true), .driver (.peer 0 e), .driver (.peer 0 e), .driver (.peer 0 e)] = .ok s ∧
      s.dropped = true ∧ s.drv = some d ∧ d.peers = [p] ∧ p.issued.length = 1 ∧ p.answers = [] ∧ p.pend = [] ∧ d.active = 1 :=
  ⟨_, _, _, rfl, rfl, rfl, rfl, rfl, rfl, rfl, rfl⟩

/-- C83 (partial): dropping the socket leaves the requests the application already holds as they are: they can be answered just as before. Missing: that the connections are closed. -/
theorem C83_held_survive_partial (D : Decompressors) (max authn comp) (s s' : Rep.Socket A) (h : RepReach D max authn comp s) (d : Driver A)
    (hd : s.drv = some d) (ha : s.act D .drop = .ok s') :
    ∃ d', s'.drv = some d' ∧ d'.held = d.held ∧ (∀ i, d'.respondOk i = d.respondOk i) ∧
      d'.peers.map (·.uid) = d.peers.map (·.uid) := by
  simp only [Rep.Socket.act] at ha
  split at ha
  · cases ha
    exact ⟨d, hd, rfl, fun _ => rfl, rfl⟩
  · cases ha
    obtain ⟨h1, h2, -⟩ := h.inv.drv d hd
    obtain ⟨-, -, -, g4, -, -, -, -, -, -, g11, -⟩ := closeInbox_inv h1 h2
    refine ⟨d.closeInbox, by simp [hd], g4, fun i => ?_, ?_⟩
    · simp only [Driver.respondOk, g4]
      congr 1
      funext r
      have e1 : ∀ ps : List (Peer A), (ps.any fun p => decide (r.handle ∈ p.pend.map (·.1))) =
          (ps.map (fun p => (p.uid, p.issued, p.pend, p.answers))).any fun x => decide (r.handle ∈ x.2.2.1.map (·.1)) := by
        intro ps
        rw [List.any_map]
        rfl
      rw [e1, e1, g11]
    · have := congrArg (List.map (·.1)) g11
      simpa [List.map_map, Function.comp_def] using this

omit [DecidableEq A] in
/-- A response was given to a request the application had received. -/
theorem responded_taken {D : Decompressors} {d : Driver A} (h : DInv D d none) {x : Nat} {b : Bytes} (hx : d.slots x = .responded b) :
    x ∈ d.taken.map (·.handle) := by
  have hlt : x < d.next := by
    apply Nat.lt_of_not_le
    intro hle
    rw [h.future x hle] at hx
    cases hx
  have hm : x ∈ d.log.map (·.2.1) := by rw [h.log]; exact List.mem_range.2 hlt
  obtain ⟨⟨u, y, m, f⟩, hl, hy⟩ := List.mem_map.1 hm
  simp only at hy
  subst hy
  have hdel : ∃ pl, f = .delivered pl := by
    cases f with
    | delivered pl => exact ⟨pl, rfl⟩
    | undecodable =>
      rcases h.dropped u y m .undecodable hl (by simp) with h1 | h1
      · rw [hx] at h1; cases h1
      · cases h1
    | full =>
      rcases h.dropped u y m .full hl (by simp) with h1 | h1
      · rw [hx] at h1; cases h1
      · cases h1
  obtain ⟨pl, rfl⟩ := hdel
  have h1 : (y, pl) ∈ deliveredOf d.log := List.mem_filterMap.2 ⟨_, hl, rfl⟩
  rw [← h.inbox] at h1
  obtain ⟨r, hr, hre⟩ := List.mem_map.1 h1
  simp only [Prod.mk.injEq] at hre
  obtain ⟨rfl, -⟩ := hre
  rcases List.mem_append.1 hr with hr | hr
  · exact List.mem_map.2 ⟨r, hr, rfl⟩
  · rw [h.waiting r (.inr hr)] at hx
    cases hx

theorem act_held {D : Decompressors} {d d' : Driver A} (a : Act A) (h : d.act D a = .ok d') (hib : d.inbox = []) :
    ∀ r ∈ d'.held, r ∈ d.held := by
  have same : d'.held = d.held → ∀ r ∈ d'.held, r ∈ d.held := fun he r hr => he ▸ hr
  cases a with
  | peer k e =>
    apply same
    simp only [Driver.act, Driver.stepPeer] at h
    cases hk : d.peers[k]? with
    | none => simp only [hk] at h; cases h; rfl
    | some p =>
      simp only [hk] at h
      cases hit : p.iter d.comp d.slots d.next e with
      | panic => rw [hit] at h; cases h
      | ok r =>
        obtain ⟨p', o⟩ := r
        simp only [hit, R.bind_ok, R.pure_eq] at h
        cases o with
        | request x m =>
          cases h
          simp only [Driver.onRequest]
          split
          · rfl
          · split <;> rfl
        | sent m => cases h; rfl
        | queued => cases h; rfl
        | error => cases h; rfl
        | closed => cases h; rfl
        | pending => cases h; rfl
  | join i =>
    apply same
    cases h
    show (d.stepJoin i).held = d.held
    unfold Driver.stepJoin
    split
    · dsimp only
      split <;> rfl
    · rfl
  | ready i ok =>
    apply same
    cases h
    show (d.stepConn i ok).held = d.held
    unfold Driver.stepConn
    split
    · rfl
    · dsimp only
      split
      · split
        · rfl
        · split <;> rfl
      · rfl
  | accept c =>
    apply same
    cases h
    show (d.stepAccept c).held = d.held
    unfold Driver.stepAccept
    split
    · split <;> rfl
    · rfl
  | recv =>
    simp only [Driver.act, hib] at h
    cases h
    exact fun r hr => hr
  | respond i b =>
    simp only [Driver.act] at h
    split at h
    · cases h; exact fun r hr => hr
    · cases h; exact fun r hr => (List.eraseIdx_sublist _ _).mem hr
  | drop i =>
    simp only [Driver.act] at h
    split at h
    · cases h; exact fun r hr => hr
    · cases h; exact fun r hr => (List.eraseIdx_sublist _ _).mem hr

/-- What is known after the socket was dropped: only requests received before have been or will be answered. -/
structure After (T : List Nat) (s : Rep.Socket A) : Prop where
  dropped : s.dropped = true
  held : ∀ d, s.drv = some d → ∀ r ∈ d.held, r.handle ∈ T
  slots : ∀ d, s.drv = some d → ∀ x b, d.slots x = .responded b → x ∈ T

theorem After.act {D : Decompressors} {T : List Nat} {s s' : Rep.Socket A} (hi : SockInv D s) (h : After T s) (a : Rep.SAct A)
    (ha : s.act D a = .ok s') : After T s' := by
  cases a with
  | bind b as => simp only [Rep.Socket.act, h.dropped, if_true] at ha; cases ha; exact h
  | next => simp only [Rep.Socket.act, h.dropped, if_true] at ha; cases ha; exact h
  | drop => simp only [Rep.Socket.act, h.dropped, if_true] at ha; cases ha; exact h
  | driver a =>
    cases hd : s.drv with
    | none => cases a <;> (simp only [Rep.Socket.act, hd] at ha; cases ha; exact h)
    | some d =>
      have key : ∀ a', (do let d' ← d.act D a'; return { s with drv := some d' } : R (Rep.Socket A)) = .ok s' → After T s' := by
        intro a' hh
        cases hx : d.act D a' with
        | panic => rw [hx] at hh; cases hh
        | ok d' =>
          rw [hx] at hh
          cases hh
          refine ⟨h.dropped, ?_, ?_⟩
          · intro x hxe r hr
            cases hxe
            exact h.held d hd r (act_held a' hx (hi.dropped h.dropped d hd).1 r hr)
          · intro x hxe y b hy
            cases hxe
            by_cases h0 : d.slots y = .responded b
            · exact h.slots d hd y b h0
            · obtain ⟨i, r, -, k1, k2⟩ := act_responded a' hx hy h0
              exact k2 ▸ h.held d hd r (List.mem_of_getElem? k1)
      cases a with
      | recv => cases ha; exact h
      | peer k e => simp only [Rep.Socket.act, hd] at ha; exact key _ ha
      | join i => simp only [Rep.Socket.act, hd] at ha; exact key _ ha
      | ready i ok => simp only [Rep.Socket.act, hd] at ha; exact key _ ha
      | accept c => simp only [Rep.Socket.act, hd] at ha; exact key _ ha
      | respond i b => simp only [Rep.Socket.act, hd] at ha; exact key _ ha
      | drop i => simp only [Rep.Socket.act, hd] at ha; exact key _ ha

/-- C83: whatever happens after the socket was dropped, every response ever sent answers a request that the application had received
before: requests that were waiting to be received, or that arrive later, are never answered. -/
theorem C83_only_received_answered (D : Decompressors) (max authn comp) (pre post : List (Rep.SAct A)) (s0 s : Rep.Socket A) (d0 d : Driver A)
    (h0 : (Rep.Socket.new max authn comp : Rep.Socket A).run D pre = .ok s0) (hd0 : s0.drv = some d0) (hnd : s0.dropped = false)
    (h : (Rep.Socket.new max authn comp : Rep.Socket A).run D (pre ++ .drop :: post) = .ok s) (hd : s.drv = some d)
    (p : Peer A) (hp : p ∈ d.conns) (x : Nat) (m : ReqRep.Message) (hm : (x, m) ∈ p.answers) :
    ∃ r ∈ d0.taken, r.handle = x := by
  rw [sock_run_append, h0] at h
  simp only [R.bind_ok, Rep.Socket.run] at h
  have hi0 := RepReach.inv ⟨pre, h0⟩
  obtain ⟨hv0, ho0, -⟩ := hi0.drv d0 hd0
  obtain ⟨g1, g2, g3, g4, g5, g6, g7, g8, g9, g10, g11, g12⟩ := closeInbox_inv hv0 ho0
  have hact : s0.act D .drop = .ok { s0 with dropped := true, drv := some d0.closeInbox } := by
    simp [Rep.Socket.act, hnd, hd0]
  have hA : After (d0.taken.map (·.handle)) { s0 with dropped := true, drv := some d0.closeInbox } := by
    refine ⟨rfl, ?_, ?_⟩
    · intro y hy r hr
      cases hy
      rw [g4] at hr
      exact List.mem_map.2 ⟨r, hv0.held.mem hr, rfl⟩
    · intro y hy z b hz
      cases hy
      rw [g10] at hz
      split at hz
      · cases hz
      · exact responded_taken hv0 hz
  have hI : SockInv D { s0 with dropped := true, drv := some d0.closeInbox } := by
    obtain ⟨s1, k1, k2⟩ := hi0.act .drop
    rw [hact] at k1
    cases k1
    exact k2
  rw [hact] at h
  simp only [R.bind_ok] at h
  have fin : ∀ (acts : List (Rep.SAct A)) (s1 s2 : Rep.Socket A), SockInv D s1 → After (d0.taken.map (·.handle)) s1 → s1.run D acts = .ok s2 →
      SockInv D s2 ∧ After (d0.taken.map (·.handle)) s2 := by
    intro acts
    induction acts with
    | nil => intro s1 s2 k1 k2 hr; cases hr; exact ⟨k1, k2⟩
    | cons a acts ih =>
      intro s1 s2 k1 k2 hr
      obtain ⟨s3, j1, j2⟩ := k1.act a
      simp only [Rep.Socket.run, j1, R.bind_ok] at hr
      exact ih s3 s2 j2 (k2.act k1 a j1) hr
  obtain ⟨f1, f2⟩ := fin post _ s hI hA h
  obtain ⟨hv, -, -⟩ := f1.drv d hd
  have hc : PCore d.comp d.slots d.next p := by
    simp only [Driver.conns, List.mem_append] at hp
    exact hp.elim (fun hp => (hv.peers p hp).1) (hv.gone p)
  obtain ⟨rq, b, -, hb, -⟩ := hc.answers x m hm
  obtain ⟨r, hr, hre⟩ := List.mem_map.1 (f2.slots d hd x b hb)
  exact ⟨r, hr, hre⟩

set_option maxHeartbeats 2000000 in
/-- Two requests of a client are read; the application receives one, drops the socket, and answers: the answer is written. -/
example (D : Decompressors) :
    let c : Conn Nat := ⟨1, some 1, ⟨[.data (reqBytes 5 [1] ++ reqBytes 6 [2]), .pending], [], [], []⟩⟩
    let e : PEnv := ⟨[.ok 100, .ok 1], []⟩
    let pre : List (Rep.SAct Nat) := [.bind some [7], .driver (.accept c), .driver (.ready 0 true), .driver (.peer 0 e), .driver (.peer 0 e), .next]
    ∃ s0 d0 s d p, (Rep.Socket.new none none none : Rep.Socket Nat).run D pre = .ok s0 ∧ s0.drv = some d0 ∧ s0.dropped = false ∧
      d0.inbox.length = 1 ∧ d0.respondOk 0 = some true ∧
      (Rep.Socket.new none none none : Rep.Socket Nat).run D (pre ++ .drop :: [.driver (.respond 0 [9]), .driver (.peer 0 e),
        .driver (.peer 0 e), .driver (.peer 0 e), .driver (.peer 0 e), .driver (.peer 0 e)]) = .ok s ∧ s.drv = some d ∧ d.peers = [p] ∧
      p.answers.map (·.1) = [0] ∧ p.wr.wire = reqBytes 5 [9] :=
  ⟨_, _, _, _, _, rfl, rfl, rfl, rfl, rfl, rfl, rfl, rfl, rfl, rfl⟩

/-! ## C44 through the socket -/

/-- A socket that was not dropped: its background task and application did what some history of `Rep.Driver` says. -/
def Served (D : Decompressors) (max : Option Nat) (authn : Option (Bytes → Bool)) (comp : Option Compressor) (s : Rep.Socket A) : Prop :=
  s.max = max ∧ s.authn = authn ∧ s.comp = comp ∧ (s.dropped = false → ∀ d, s.drv = some d →
    s.transport = none ∧ ∃ as, (Driver.new max authn comp : Driver A).run D as = .ok d)

theorem Served.act {D : Decompressors} {max authn comp} {s s' : Rep.Socket A} (h : Served D max authn comp s) (a : Rep.SAct A)
    (ha : s.act D a = .ok s') : Served D max authn comp s' := by
  obtain ⟨h1, h2, h3, h4⟩ := h
  have one : s.dropped = false → ∀ (d d' : Driver A) (x : Act A), s.drv = some d → d.act D x = .ok d' →
      s.transport = none ∧ ∃ as, (Driver.new max authn comp : Driver A).run D as = .ok d' := by
    intro hnd d d' x hd hx
    obtain ⟨g1, as, g2⟩ := h4 hnd d hd
    refine ⟨g1, as ++ [x], ?_⟩
    rw [Rep.run_append, g2]
    simp only [R.bind_ok, Driver.run, hx]
  have drv : ∀ x, (match s.drv with
      | none => R.ok s
      | some d => do let d ← d.act D x; return { s with drv := some d }) = .ok s' → Served D max authn comp s' := by
    intro x hx
    cases hd : s.drv with
    | none => rw [hd] at hx; cases hx; exact ⟨h1, h2, h3, h4⟩
    | some d =>
      rw [hd] at hx
      simp only at hx
      cases hy : d.act D x with
      | panic => rw [hy] at hx; cases hx
      | ok d' =>
        rw [hy] at hx
        cases hx
        refine ⟨h1, h2, h3, ?_⟩
        intro hnd e he
        cases he
        exact one hnd d d' x hd hy
  cases a with
  | bind bind addrs =>
    simp only [Rep.Socket.act] at ha
    split at ha
    · cases ha; exact ⟨h1, h2, h3, h4⟩
    · rename_i hnd
      unfold Rep.Socket.tryBind at ha
      cases ht : s.transport with
      | none => rw [ht] at ha; cases ha; exact ⟨h1, h2, h3, fun hnd d hd => ⟨rfl, (h4 hnd d hd).2⟩⟩
      | some cur =>
        rw [ht] at ha
        simp only at ha
        cases hb : Pub.bindLoop bind cur addrs with
        | none =>
          rw [hb] at ha
          cases ha
          exact ⟨h1, h2, h3, fun hnd d hd => ⟨rfl, (h4 hnd d hd).2⟩⟩
        | some l =>
          simp only [hb] at ha
          by_cases hmx : 2 ^ 63 ≤ s.max.getD 64
          · rw [if_pos hmx] at ha
            cases ha
            exact ⟨h1, h2, h3, fun hnd d hd => ⟨rfl, (h4 hnd d hd).2⟩⟩
          rw [if_neg hmx] at ha
          cases ha
          refine ⟨h1, h2, h3, ?_⟩
          intro _ d hd
          cases hd
          refine ⟨rfl, [], ?_⟩
          rw [h1, h2, h3]
          rfl
  | next =>
    simp only [Rep.Socket.act] at ha
    split at ha
    · cases ha; exact ⟨h1, h2, h3, h4⟩
    · rename_i hnd
      unfold Rep.Socket.pollNext at ha
      cases hd : s.drv with
      | none => rw [hd] at ha; cases ha; exact ⟨h1, h2, h3, h4⟩
      | some d =>
        rw [hd] at ha
        simp only at ha
        cases hin : d.inbox with
        | nil => rw [hin] at ha; cases ha; exact ⟨h1, h2, h3, h4⟩
        | cons r rs =>
          rw [hin] at ha
          cases ha
          refine ⟨h1, h2, h3, ?_⟩
          intro hnd e he
          cases he
          exact one hnd d _ .recv hd (by simp only [Driver.act, hin])
  | driver x =>
    cases x with
    | recv => cases ha; exact ⟨h1, h2, h3, h4⟩
    | peer k e => exact drv _ ha
    | join i => exact drv _ ha
    | ready i ok => exact drv _ ha
    | accept c => exact drv _ ha
    | respond i b => exact drv _ ha
    | drop i => exact drv _ ha
  | drop =>
    simp only [Rep.Socket.act] at ha
    split at ha
    · cases ha; exact ⟨h1, h2, h3, h4⟩
    · cases ha; exact ⟨h1, h2, h3, by intro h; cases h⟩

/-- Every socket is one. -/
theorem served_run {D : Decompressors} {max authn comp} (acts : List (Rep.SAct A)) {s : Rep.Socket A}
    (h : (Rep.Socket.new max authn comp : Rep.Socket A).run D acts = .ok s) : Served D max authn comp s := by
  have key : ∀ (acts : List (Rep.SAct A)) (s0 s1 : Rep.Socket A), Served D max authn comp s0 → s0.run D acts = .ok s1 →
      Served D max authn comp s1 := by
    intro acts
    induction acts with
    | nil => intro s0 s1 h0 h1; cases h1; exact h0
    | cons a acts ih =>
      intro s0 s1 h0 h1
      simp only [Rep.Socket.run] at h1
      cases hx : s0.act D a with
      | panic => rw [hx] at h1; cases h1
      | ok s2 => rw [hx] at h1; exact ih s2 s1 (h0.act a hx) h1
  exact key acts _ s ⟨rfl, rfl, rfl, by intro _ d h; cases h⟩ h

/-- C44 through the socket: whatever the user and the clients of a reply socket did, as long as it is not dropped its state is one
`C44_delivered_in_order_partial` speaks of; and polling it for a request returns the first of the requests that wait, if there is one, and
takes exactly that one: what was received, followed by what waits, is the same list before and after. -/
theorem C44_socket_receives (D : Decompressors) (max authn comp) (s : Rep.Socket A) (h : RepReach D max authn comp s) (d : Driver A)
    (hd : s.drv = some d) (hnd : s.dropped = false) :
    (∃ as, (Driver.new max authn comp : Driver A).run D as = .ok d) ∧
    ∃ s' d', s.pollNext = .ok (d.inbox.head?, s') ∧ s.act D .next = .ok s' ∧ s'.drv = some d' ∧
      d'.taken = d.taken ++ d.inbox.head?.toList ∧ d'.held = d.held ++ d.inbox.head?.toList ∧
      d'.taken ++ d'.inbox = d.taken ++ d.inbox := by
  constructor
  · obtain ⟨acts, hr⟩ := h
    exact ((served_run acts hr).2.2.2 hnd d hd).2
  · have hact : ∀ o s', s.pollNext = .ok (o, s') → s.act D .next = .ok s' := by
      intro o s' hp
      simp only [Rep.Socket.act, hnd, Bool.false_eq_true, if_false, hp]
    cases hin : d.inbox with
    | nil =>
      have hp : s.pollNext = .ok (none, s) := by simp only [Rep.Socket.pollNext, hd, hin]
      exact ⟨s, d, hp, hact _ _ hp, hd, by simp, by simp, by simp [hin]⟩
    | cons r rs =>
      have hp : s.pollNext = .ok (some r, { s with drv := some { d with inbox := rs, held := d.held ++ [r], taken := d.taken ++ [r] } }) := by
        simp only [Rep.Socket.pollNext, hd, hin]
      exact ⟨_, _, hp, hact _ _ hp, rfl, by simp, by simp, by simp⟩

/-- A bound socket with two requests waiting. -/
example (D : Decompressors) : ∃ (s : Rep.Socket Nat) (d : Driver Nat), RepReach D none none none s ∧ s.drv = some d ∧
    s.dropped = false ∧ d.inbox.length = 2 :=
  ⟨_, _, ⟨[.bind some [7], .driver (.accept ⟨1, some 1, ⟨[.data (reqBytes 5 [1] ++ reqBytes 6 [2]), .pending], [], [], []⟩⟩), .driver (.ready 0 true),
    .driver (.peer 0 ⟨[.ok 100, .ok 1], []⟩), .driver (.peer 0 ⟨[.ok 100, .ok 1], []⟩)], rfl⟩, rfl, rfl, rfl⟩

end MsgRs.Props
