import Verif.Proofs.SubOrder
import Verif.Props.Unsub
import Verif.Props.SubCalls
/-!
# C110: order across reconnections
-/
namespace MsgRs.Spec
open MsgRs

/-- The received messages with source `a`. -/
def fromAddr {A : Type} [DecidableEq A] (a : A) (l : List (Sub.InMsg A)) : List (Sub.InMsg A) := l.filter fun m => decide (m.source = a)

/-- What the connections to `a` have read — topics, and payloads that could be decompressed — one connection after the other. -/
def readFrom {A : Type} [DecidableEq A] (L : Lossy) (D : Decompressors) (a : A) (d : Sub.Driver A) : List (Str × Bytes) :=
  ((d.addrs.zip d.sessions).filter fun x => decide (x.1 = a)).flatMap fun x => x.2.got.filterMap (Sub.shown L D)

/-- What happens in a network of one publisher socket and one subscriber socket: something at either. -/
inductive NetAct (A : Type) where
  | pub (a : Pub.SrvAct A)
  | sub (a : Sub.Act A)

def NetAct.atPub {A : Type} : NetAct A → Option (Pub.SrvAct A)
  | .pub a => some a
  | .sub _ => none

def NetAct.atSub {A : Type} : NetAct A → Option (Sub.Act A)
  | .pub _ => none
  | .sub a => some a

/-- The publisher's and the subscriber's part of a history. -/
def pubPart {A : Type} (h : List (NetAct A)) : List (Pub.SrvAct A) := h.filterMap NetAct.atPub
def subPart {A : Type} (h : List (NetAct A)) : List (Sub.Act A) := h.filterMap NetAct.atSub

/-- The network between the two during the history `H`, when the address `a` is the publisher's: the subscriber's `u`-th connection, if it is one to `a`, is (or will be) served
by the publisher's session number `peer u`. At every moment of the history:

* what a connection to `a` has read are bytes that session has written (nothing, if there is no such session yet), and the other way round;
* there is a session serving the `u`-th connection only once the attempt to connect that leads to it is under way: the `u`-th connection is there already, or an attempt to connect
  to `a` is being made and all connections to `a` before the `u`-th are there already. -/
structure OneNet {A : Type} [DecidableEq A] (L : Lossy) (D : Decompressors) (srv : Pub.Server A) (d0 : Sub.Driver A) (a : A) (peer : Nat → Nat) (H : List (NetAct A)) : Prop where
  carries : ∀ pre suf d, H = pre ++ suf → d0.run L D (subPart pre) = .ok d → ∀ (u : Nat) (s : Sub.Session), d.sessions[u]? = some s → d.addrs[u]? = some a →
    readSoFar s.input0 s.input = [] ∨ ∃ x, (srv.run L (pubPart pre)).ses[peer u]? = some x ∧ Props.Connected x.input x.task.sess s
  causal : ∀ pre suf d df, H = pre ++ suf → d0.run L D (subPart pre) = .ok d → d0.run L D (subPart H) = .ok df →
    ∀ u : Nat, df.addrs[u]? = some a → peer u < (srv.run L (pubPart pre)).ses.length →
      u < d.addrs.length ∨ (a ∈ d.tasks ∧ ∀ v : Nat, v < u → df.addrs[v]? = some a → v < d.addrs.length)

end MsgRs.Spec

namespace MsgRs.Props
open MsgRs Spec Sub

variable {A : Type} [DecidableEq A] {L : Lossy} {D : Decompressors}

/-! ## The subscriber -/

theorem msgs_sorted {d : Driver A} (h : Reach L D d) :
    (d.received ++ d.inbox).Pairwise fun x y => x.source = y.source → x.conn ≤ y.conn := by
  have ho := h.order
  obtain ⟨rest, hr, -⟩ := h.inv.inbox
  have : (d.fates.filterMap (inMsgOf D d.addrs)).Pairwise fun x y => x.source = y.source → x.conn ≤ y.conn := by
    rw [List.pairwise_filterMap]
    refine ho.sorted.imp ?_
    intro x y hxy m hm m' hm' he
    obtain ⟨h1, h2, -⟩ := inMsgOf_conn hm
    obtain ⟨g1, g2, -⟩ := inMsgOf_conn hm'
    rw [h1, g1]
    apply hxy
    rw [← h1, ← g1, h2, g2, he]
  rw [hr] at this
  exact (List.pairwise_append.1 this).1

/-- Sorted: the lower ones first. -/
theorem sorted_split {α : Type} (f : α → Nat) (l : List α) (h : l.Pairwise fun x y => f x ≤ f y) (u : Nat) (hu : ∀ x ∈ l, f x ≤ u) :
    l = (l.filter fun x => decide (f x < u)) ++ l.filter fun x => decide (f x = u) := by
  induction l with
  | nil => rfl
  | cons x l ih =>
    obtain ⟨h1, h2⟩ := List.pairwise_cons.1 h
    have hi := ih h2 fun y hy => hu y (List.mem_cons_of_mem _ hy)
    by_cases hx : f x < u
    · simp only [List.filter_cons, hx, decide_true, if_true, List.cons_append, show ¬ f x = u by omega, decide_false, Bool.false_eq_true, if_false]
      rw [← hi]
    · have hxu : f x = u := by have := hu x List.mem_cons_self; omega
      have hnil : l.filter (fun x => decide (f x < u)) = [] := by
        rw [List.filter_eq_nil_iff]
        intro y hy
        have := h1 y hy
        simp; omega
      simp only [List.filter_cons, hx, hxu, decide_true, if_true, decide_false, Bool.false_eq_true, if_false]
      rw [hnil, List.nil_append] at hi
      rw [hnil, ← hi]
      simp

/-- Sorted: class after class. -/
theorem sorted_classes {α : Type} (f : α → Nat) (n : Nat) : ∀ l : List α, (l.Pairwise fun x y => f x ≤ f y) → (∀ x ∈ l, f x < n) →
    l = (List.range n).flatMap fun u => l.filter fun x => decide (f x = u) := by
  induction n with
  | zero =>
    intro l _ hb
    cases l with
    | nil => rfl
    | cons x l => exact absurd (hb x List.mem_cons_self) (by omega)
  | succ n ih =>
    intro l h hb
    rw [List.range_succ, List.flatMap_append, List.flatMap_singleton]
    have hs := sorted_split f l h n (fun x hx => by have := hb x hx; omega)
    have hi := ih (l.filter fun x => decide (f x < n)) (h.sublist List.filter_sublist)
      (fun x hx => by have := (List.mem_filter.1 hx).2; simpa using this)
    have hc : ((List.range n).flatMap fun u => (l.filter fun x => decide (f x < n)).filter fun x => decide (f x = u)) =
        (List.range n).flatMap fun u => l.filter fun x => decide (f x = u) := by
      rw [List.flatMap_def, List.flatMap_def]
      congr 1
      apply List.map_congr_left
      intro u hu
      rw [List.filter_filter]
      apply List.filter_congr
      intro x _
      have := List.mem_range.1 hu
      by_cases hx : f x = u
      · simp [hx, this]
      · simp [hx]
    rw [← hc, ← hi]
    exact hs

theorem flatMap_sublist {α β : Type} (l : List α) (f g : α → List β) (h : ∀ x ∈ l, (f x).Sublist (g x)) : (l.flatMap f).Sublist (l.flatMap g) := by
  induction l with
  | nil => exact List.Sublist.refl _
  | cons x l ih =>
    rw [List.flatMap_cons, List.flatMap_cons]
    exact (h x List.mem_cons_self).append (ih fun y hy => h y (List.mem_cons_of_mem _ hy))

/-- By index. -/
theorem flatMap_range {α β : Type} (f : α → List β) : ∀ l : List α,
    l.flatMap f = (List.range l.length).flatMap fun i => match l[i]? with | some x => f x | none => [] := by
  intro l
  refine Trie.snoc_induction (P := fun l => l.flatMap f = (List.range l.length).flatMap fun i => match l[i]? with | some x => f x | none => []) rfl ?_ l
  intro l x ih
  rw [List.flatMap_append, List.length_append, List.length_singleton, List.range_succ, List.flatMap_append, ih]
  congr 1
  · rw [List.flatMap_def, List.flatMap_def]
    congr 1
    apply List.map_congr_left
    intro i hi
    rw [List.getElem?_append_left (List.mem_range.1 hi)]
  · simp

/-- C110: what the user of a subscriber gets from one publisher is, in order and without duplicates, among what the connections to it read: first what the first connection read, then
what the second read, and so on. -/
theorem C110_connection_after_connection (L : Lossy) (D : Decompressors) (d : Driver A) (h : Reach L D d) (a : A) :
    ((fromAddr a (d.received ++ d.inbox)).map fun m => (m.topic, m.payload)).Sublist (readFrom L D a d) := by
  have hs := (msgs_sorted h)
  obtain ⟨hatt, hsub⟩ := C50_attributed_in_order L D d h
  have hi := h.inv
  have hs' : (fromAddr a (d.received ++ d.inbox)).Pairwise fun x y => x.conn ≤ y.conn := by
    have := hs.sublist (l₁ := fromAddr a (d.received ++ d.inbox)) List.filter_sublist
    refine this.imp_of_mem ?_
    intro x y hx hy hxy
    apply hxy
    have h1 := (List.mem_filter.1 hx).2
    have h2 := (List.mem_filter.1 hy).2
    rw [of_decide_eq_true h1, of_decide_eq_true h2]
  have hb : ∀ x ∈ fromAddr a (d.received ++ d.inbox), x.conn < (d.addrs.zip d.sessions).length := by
    intro x hx
    have := (List.getElem?_eq_some_iff.1 (hatt x (List.mem_filter.1 hx).1)).1
    rw [List.length_zip, ← hi.len]
    omega
  rw [sorted_classes (fun m : InMsg A => m.conn) _ _ hs' hb]
  unfold readFrom
  rw [List.map_flatMap]
  have hf : ∀ l : List (A × Session), (l.filter fun x => decide (x.1 = a)).flatMap (fun x => x.2.got.filterMap (shown L D)) =
      l.flatMap fun x => if x.1 = a then x.2.got.filterMap (shown L D) else [] := by
    intro l
    induction l with
    | nil => rfl
    | cons x l ih =>
      by_cases hx : x.1 = a
      · simp [hx, ih]
      · simp [hx, ih]
  rw [hf, flatMap_range _ (d.addrs.zip d.sessions)]
  apply flatMap_sublist
  intro u hu
  have hu := List.mem_range.1 hu
  rw [List.length_zip] at hu
  obtain ⟨b, hb'⟩ : ∃ b, d.addrs[u]? = some b := ⟨_, List.getElem?_eq_getElem (by omega)⟩
  obtain ⟨s, hs''⟩ : ∃ s, d.sessions[u]? = some s := ⟨_, List.getElem?_eq_getElem (by omega)⟩
  have hz : (d.addrs.zip d.sessions)[u]? = some (b, s) := by
    rw [List.getElem?_zip_eq_some]; exact ⟨hb', hs''⟩
  rw [hz]
  simp only
  by_cases hba : b = a
  · rw [if_pos hba]
    refine List.Sublist.trans ?_ (hsub u s hs'')
    refine List.Sublist.map _ ?_
    unfold fromAddr ofConn
    rw [List.filter_filter]
    suffices he : (d.received ++ d.inbox).filter (fun m => decide (m.conn = u) && decide (m.source = a)) = (d.received ++ d.inbox).filter fun m => decide (m.conn = u) by
      rw [he]; exact List.Sublist.refl _
    apply List.filter_congr
    intro m hm
    by_cases hmu : m.conn = u
    · have := hatt m hm
      rw [hmu, hb'] at this
      cases this
      simp [hmu, hba]
    · simp [hmu]
  · rw [if_neg hba]
    have : (fromAddr a (d.received ++ d.inbox)).filter (fun x => decide (x.conn = u)) = [] := by
      rw [List.filter_eq_nil_iff]
      intro m hm hmu
      have hmu : m.conn = u := of_decide_eq_true hmu
      obtain ⟨h1, h2⟩ := List.mem_filter.1 hm
      have := hatt m h1
      rw [hmu, hb'] at this
      cases this
      exact hba (of_decide_eq_true h2)
    rw [this]
    exact List.Sublist.refl _

/-! ## Subscriber and publisher -/

theorem sub_run_pre {d e : Driver A} {xs ys : List (Act A)} (h : d.run L D (xs ++ ys) = .ok e) : ∃ m, d.run L D xs = .ok m ∧ m.run L D ys = .ok e := by
  induction xs generalizing d with
  | nil => exact ⟨d, rfl, h⟩
  | cons a xs ih =>
    rw [List.cons_append] at h
    rw [Driver.run] at h
    cases ha : d.act L D a with
    | panic => rw [ha] at h; cases h
    | ok d' =>
      rw [ha] at h
      obtain ⟨m, h1, h2⟩ := ih h
      exact ⟨m, by rw [Driver.run, ha]; exact h1, h2⟩

theorem steps_closed {d e : Driver A} (h : DSteps L D d e) (hc : d.closed = true) : e.closed = true ∧ e.received = d.received ∧ (d.inbox = [] → e.inbox = []) := by
  induction h with
  | refl => exact ⟨hc, rfl, id⟩
  | @step e f _ hs ih =>
    obtain ⟨h1, h2, h3⟩ := ih
    suffices k : f.closed = true ∧ f.received = e.received ∧ f.inbox = e.inbox from ⟨k.1, k.2.1.trans h2, fun h => by rw [k.2.2]; exact h3 h⟩
    cases hs with
    | start h => rw [h1] at h; cases h
    | push c h => rw [h1] at h; cases h
    | recv m ms h => rw [h1] at h; cases h
    | drop h => rw [h1] at h; cases h
    | command c q hq =>
      have hh := onCommand_same { e with cmdq := q, processed := e.processed ++ [c] } c
      exact ⟨by rw [hh.2.2.1]; exact h1, by rw [hh.2.2.2.2.1], by rw [hh.2.2.2.1]⟩
    | take a u s t ms payload hl hu ht hd =>
      unfold Driver.deliver
      simp only [h1, if_true]
      exact ⟨trivial, trivial, trivial⟩
    | lost a u s hl hu ht ho => rw [reset_eq]; exact ⟨h1, rfl, rfl⟩
    | retry a b hl => unfold Driver.connect; split <;> exact ⟨h1, rfl, rfl⟩
    | joinOk i a order out via input ht hr =>
      unfold Driver.onConnection
      split <;> exact ⟨h1, rfl, rfl⟩
    | _ => exact ⟨h1, rfl, rfl⟩

/-- Only dropping the socket closes it. -/
theorem pollPub_closed {d d' : Driver A} {a : A} {p : Bool} (h : d.pollPub D a = .ok (d', p)) : d'.closed = d.closed := by
  have hdel : ∀ (d : Driver A) a u t payload, (d.deliver a u t payload).closed = d.closed := by
    intro d a u t payload; unfold Driver.deliver; repeat' split
    all_goals rfl
  have hres : ∀ (d : Driver A) a, (d.resetPublisher a).closed = d.closed := by
    intro d a; rw [reset_eq]
  have hcon : ∀ (d : Driver A) a, (d.connect a).closed = d.closed := by
    intro d a; unfold Driver.connect; split <;> rfl
  unfold Driver.pollPub at h
  split at h
  · cases h; rfl
  · split at h
    · cases h; rfl
    · split at h
      · simp only at h
        split at h
        · cases h; rfl
        · cases h; exact hdel _ _ _ _ _
      · cases h; exact hres _ _
      · cases h; rfl
  · rename_i b _
    cases hb : b.poll d.now with
    | panic => rw [hb] at h; cases h
    | ok r =>
      rw [hb] at h
      obtain ⟨o, b'⟩ := r
      simp only [R.bind_ok, R.pure_eq] at h
      cases o with
      | pending => cases h; rfl
      | item i => cases h; exact hcon _ _
      | ended => cases h; rfl

theorem pollPublishers_closed (order : List A) {d d' : Driver A} {p : Bool} (h : d.pollPublishers D order = .ok (d', p)) : d'.closed = d.closed := by
  induction order generalizing d d' p with
  | nil => cases h; rfl
  | cons a as ih =>
    unfold Driver.pollPublishers at h
    cases h1 : d.pollPub D a with
    | panic => rw [h1] at h; cases h
    | ok r =>
      rw [h1] at h
      simp only [R.bind_ok] at h
      cases h2 : r.1.pollPublishers D as with
      | panic => rw [h2] at h; cases h
      | ok r2 =>
        rw [h2] at h
        cases h
        exact (ih h2).trans (pollPub_closed (d' := r.1) (p := r.2) h1)

theorem joinStep_closed (d : Driver A) (e : Env A) : (d.joinStep e).1.closed = d.closed := by
  unfold Driver.joinStep
  split
  · rfl
  · split
    · rfl
    · split
      · rfl
      · rfl
      · rfl
      · have := fun (d : Driver A) (o : List Str) (a : A) v i => onConnection_same d o a v i
        simp only
        exact (this _ _ _ _ _).2.2.2.2.2.2.1

theorem iter_closed {d d' : Driver A} {e : Env A} {o : Out} (h : d.iter D e = .ok (d', o)) : d'.closed = d.closed := by
  unfold Driver.iter at h
  cases h1 : d.pollPublishers D e.order with
  | panic => rw [h1] at h; cases h
  | ok r =>
    rw [h1] at h
    obtain ⟨d1, p⟩ := r
    rw [← pollPublishers_closed _ h1]
    simp only [R.bind_ok, R.pure_eq] at h
    cases p with
    | true => simp only [if_true] at h; cases h; rfl
    | false =>
      simp only [Bool.false_eq_true, if_false] at h
      cases hq : d1.cmdq with
      | nil =>
        rw [hq] at h
        have hj : d' = (d1.joinStep e).1 := by
          have := R.ok.inj h
          rw [this]
        rw [hj]
        exact joinStep_closed d1 e
      | cons c q =>
        rw [hq] at h
        cases h
        exact (onCommand_same { d1 with cmdq := q, processed := d1.processed ++ [c] } c).2.2.1

/-- After an action that left the socket dropped, what the user has got is what it had before it, or had to come. -/
theorem act_closing {d e : Driver A} {x : Act A} (h : d.act L D x = .ok e) (hd : d.closed = true → d.inbox = []) (hc : e.closed = true) :
    e.inbox = [] ∧ e.received = d.received := by
  cases hdc : d.closed with
  | true =>
    obtain ⟨-, h2, h3⟩ := steps_closed (act_steps d e x h) hdc
    exact ⟨h3 (hd hdc), h2⟩
  | false =>
    have no : e.closed = d.closed → e.inbox = [] ∧ e.received = d.received := fun h => by rw [h, hdc] at hc; cases hc
    cases x with
    | iter env =>
      apply no
      simp only [Driver.act] at h
      split at h
      · cases h1 : d.iter D env with
        | panic => rw [h1] at h; cases h
        | ok r => rw [h1] at h; cases h; exact iter_closed (d' := r.1) (o := r.2) h1
      · cases h; rfl
    | session u env =>
      apply no
      simp only [Driver.act] at h
      split at h <;> cases h <;> rfl
    | advance dt => cases h; exact no rfl
    | call c =>
      apply no
      simp only [Driver.act, hdc, Bool.false_eq_true, if_false] at h
      cases h
      have hs : ∀ x : Command A, (d.ensureActive.send x).2.closed = d.closed := by
        intro x; unfold Driver.send Driver.ensureActive; repeat' split
        all_goals rfl
      have ht : ∀ x : Command A, (d.ensureActive.trySend x).2.closed = d.closed := by
        intro x; unfold Driver.trySend Driver.ensureActive; repeat' split
        all_goals rfl
      cases c with
      | subscribe t => unfold Driver.call Driver.subscribeAsync; simp only; split <;> first | rfl | exact hs _
      | trySubscribe t => unfold Driver.call Driver.trySubscribe; simp only; split <;> first | rfl | exact ht _
      | unsubscribe t => unfold Driver.call Driver.unsubscribeAsync; simp only; split <;> first | rfl | exact hs _
      | tryUnsubscribe t => unfold Driver.call Driver.tryUnsubscribe; simp only; split <;> first | rfl | exact ht _
      | connect a => exact hs _
      | tryConnect a => exact ht _
      | disconnect a => exact hs _
      | tryDisconnect a => exact ht _
      | recv => unfold Driver.call Driver.recv; simp only; split <;> rfl
    | dropSocket =>
      simp only [Driver.act, hdc, Bool.false_eq_true, if_false] at h
      cases h
      refine ⟨rfl, ?_⟩
      unfold Driver.dropSocket Driver.trySend
      simp only
      repeat' split
      all_goals rfl

theorem pubCalls_pre (pre post : List (Pub.SrvAct A)) : pubCalls pre <+: pubCalls (pre ++ post) := by
  by_cases h : Pub.SrvAct.drop ∈ pre
  · rw [pubCalls_append_drop _ _ h]; exact List.prefix_rfl
  · rw [pubCalls_append _ _ h]; exact List.prefix_append _ _

theorem addrs_pre {d e : Driver A} (h : DSteps L D d e) : d.addrs <+: e.addrs := by
  induction h with
  | refl => exact List.prefix_rfl
  | step _ hs ih =>
    cases hs.kind with
    | calm c => rw [c.2.1]; exact ih
    | took b u t f hl h1 h2 h3 => rw [h2]; exact ih
    | join b h1 h2 h3 => rw [h2]; exact ih.trans (List.prefix_append _ _)

/-- A connection that has read nothing has given nothing. -/
theorem got_nothing {s : Session} (hi : SInv L s) (h : readSoFar s.input0 s.input = []) : s.got = [] := by
  have hd := drains_encoded PubSub.codec PubSub.encode PubSub.decode_nil PubSub.Message.WF
    (fun m x h => PubSub.decode_encode m x h) [] (by simp)
  have : s.got <+: [] := by
    refine hi.reads.prefix (y := []) (e := none) ?_
    simp only [List.append_nil]
    rw [h]
    exact hd
  exact List.prefix_nil.1 this

theorem part_split {P : List (NetAct A)} {pre post : List (Pub.SrvAct A)} {x : Pub.SrvAct A} (h : pubPart P = pre ++ x :: post) :
    ∃ Q R, P = Q ++ .pub x :: R ∧ pubPart Q = pre := by
  unfold pubPart at h
  obtain ⟨Q, R, h1, h2, h3⟩ := List.filterMap_eq_append_iff.1 h
  obtain ⟨R1, y, R2, g1, g2, g3, -⟩ := List.filterMap_eq_cons_iff.1 h3
  refine ⟨Q ++ R1, R2, ?_, ?_⟩
  · rw [h1, g1, List.append_assoc]
    cases y with
    | pub z => simp only [NetAct.atPub] at g3; cases g3; rfl
    | sub z => cases g3
  · unfold pubPart
    rw [List.filterMap_append, h2, List.filterMap_eq_nil_iff.2 g2, List.append_nil]

/-- C110, end to end: a publisher and a subscriber that connects to it — any history of both, any number of connections, one after the other. What the user of the subscriber gets from
the publisher was published, in the order of the calls of `publish` and `try_publish`, and each message at most as often as it was published: losing a connection and making a new one
neither repeats nor reorders messages. -/
theorem C110_reconnects (L : Lossy) (D : Decompressors) (max : Option Nat) (authn : Option (Bytes → Bool)) (boundary minCompress bufferSize : Nat) (comp : Option Compressor)
    (hcomp : ∀ c, comp = some c → Spec.Inverts D c) (opts : Options) (now : Nat) (d0 d : Driver A) (h0 : Driver.new opts now = .ok d0)
    (H : List (NetAct A)) (a : A) (peer : Nat → Nat)
    (hnet : OneNet L D (Pub.Server.new max authn boundary minCompress bufferSize comp) d0 a peer H)
    (hsmall : ∀ c ∈ pubCalls (pubPart H), ∀ m, c.prepare minCompress comp = some m → m.payload.length < 2 ^ 32)
    (hr : d0.run L D (subPart H) = .ok d) :
    ((fromAddr a (d.received ++ d.inbox)).map fun m => (m.topic, m.payload)).Sublist ((pubCalls (pubPart H)).map fun c => (c.topic, c.payload)) := by
  have hd0 : d0.closed = false ∧ d0.received = [] ∧ d0.inbox = [] := by
    unfold Driver.new at h0
    split at h0
    · cases h0
    · cases h0; exact ⟨rfl, rfl, rfl⟩
  suffices key : ∀ n P suf e, P.length ≤ n → H = P ++ suf → d0.run L D (subPart P) = .ok e →
      (e.closed = true → e.inbox = []) ∧
      ((fromAddr a (e.received ++ e.inbox)).map fun m => (m.topic, m.payload)).Sublist ((pubCalls (pubPart P)).map fun c => (c.topic, c.payload)) from
    (key H.length H [] d (Nat.le_refl _) (by simp) hr).2
  have mono : ∀ (P S : List (NetAct A)) (l : List (Str × Bytes)), l.Sublist ((pubCalls (pubPart P)).map fun c => (c.topic, c.payload)) →
      l.Sublist ((pubCalls (pubPart (P ++ S))).map fun c => (c.topic, c.payload)) := by
    intro P S l hl
    refine hl.trans (List.Sublist.map _ ?_)
    unfold pubPart
    rw [List.filterMap_append]
    exact (pubCalls_pre _ _).sublist
  intro n
  induction n with
  | zero =>
    intro P suf e hP hH hrun
    have : P = [] := List.eq_nil_of_length_eq_zero (by omega)
    subst this
    cases hrun
    rw [hd0.2.1, hd0.2.2]
    exact ⟨fun _ => rfl, List.nil_sublist _⟩
  | succ n ih =>
    intro P suf e hP hH hrun
    rcases List.eq_nil_or_concat P with rfl | ⟨P', c, rfl⟩
    · exact ih [] suf e (by simp) hH hrun
    rw [List.concat_eq_append] at *
    have hlen : P'.length ≤ n := by simp at hP; exact hP
    have hH' : H = P' ++ (c :: suf) := by rw [hH]; simp
    cases c with
    | pub x =>
      have hs : subPart (P' ++ [NetAct.pub x]) = subPart P' := by unfold subPart; rw [List.filterMap_append]; simp [NetAct.atSub]
      rw [hs] at hrun
      obtain ⟨h1, h2⟩ := ih P' _ e hlen hH' hrun
      exact ⟨h1, mono _ _ _ h2⟩
    | sub x =>
      have hs : subPart (P' ++ [NetAct.sub x]) = subPart P' ++ [x] := by unfold subPart; rw [List.filterMap_append]; rfl
      obtain ⟨e', he', hx⟩ := sub_run_pre (hs ▸ hrun)
      have hx : e'.act L D x = .ok e := by
        rw [Driver.run] at hx
        cases hxa : e'.act L D x with
        | panic => rw [hxa] at hx; cases hx
        | ok y => rw [hxa] at hx; cases hx; rfl
      obtain ⟨i1, i2⟩ := ih P' _ e' hlen hH' he'
      cases hc : e.closed with
      | true =>
        obtain ⟨g1, g2⟩ := act_closing hx i1 hc
        refine ⟨fun _ => g1, mono _ _ _ (List.Sublist.trans ?_ i2)⟩
        rw [g1, g2, List.append_nil]
        refine List.Sublist.map _ ?_
        unfold fromAddr
        exact (List.sublist_append_left _ _).filter _
      | false =>
        refine ⟨(fun h => by cases h), ?_⟩
        have hreach : Reach L D e := ⟨opts, now, d0, _, h0, hrun⟩
        have hie := hreach.inv
        generalize hP0 : P' ++ [NetAct.sub x] = P at *
        rcases List.eq_nil_or_concat (fromAddr a (e.received ++ e.inbox)) with hM | ⟨M, m, hM⟩
        · rw [hM]; exact List.nil_sublist _
        rw [List.concat_eq_append] at hM
        -- the newest connection that gave something
        obtain ⟨hatt, hsubl⟩ := C50_attributed_in_order L D e hreach
        have hsorted : (fromAddr a (e.received ++ e.inbox)).Pairwise fun x y => x.conn ≤ y.conn := by
          refine ((msgs_sorted hreach).sublist (l₁ := fromAddr a (e.received ++ e.inbox)) List.filter_sublist).imp_of_mem ?_
          intro x y hx hy hxy
          apply hxy
          rw [of_decide_eq_true (List.mem_filter.1 hx).2, of_decide_eq_true (List.mem_filter.1 hy).2]
        have htop : ∀ y ∈ fromAddr a (e.received ++ e.inbox), y.conn ≤ m.conn := by
          intro y hy
          rw [hM] at hy hsorted
          rcases List.mem_append.1 hy with h | h
          · exact (List.pairwise_append.1 hsorted).2.2 y h m (by simp)
          · simp only [List.mem_singleton] at h; rw [h]; exact Nat.le_refl _
        have hm : m ∈ fromAddr a (e.received ++ e.inbox) := by rw [hM]; simp
        have hma := hatt m (List.mem_filter.1 hm).1
        rw [of_decide_eq_true (List.mem_filter.1 hm).2] at hma
        obtain ⟨s, hs'⟩ : ∃ s, e.sessions[m.conn]? = some s := ⟨_, List.getElem?_eq_getElem (by rw [← hie.len]; exact (List.getElem?_eq_some_iff.1 hma).1)⟩
        have hsplit := sorted_split (fun y : InMsg A => y.conn) _ hsorted m.conn htop
        have hlast : (fromAddr a (e.received ++ e.inbox)).filter (fun y => decide (y.conn = m.conn)) = ofConn m.conn (e.received ++ e.inbox) := by
          unfold fromAddr ofConn
          rw [List.filter_filter]
          apply List.filter_congr
          intro y hy
          by_cases hyu : y.conn = m.conn
          · have := hatt y hy
            rw [hyu, hma] at this
            cases this
            simp [hyu]
          · simp [hyu]
        -- it is served by a session of the publisher
        rcases hnet.carries P suf e hH hrun m.conn s hs' hma with hno | ⟨x', hx', hconn⟩
        · exfalso
          have hg := got_nothing (hie.sess m.conn s hs') hno
          have := hsubl m.conn s hs'
          rw [hg] at this
          have hm' : m ∈ ofConn m.conn (e.received ++ e.inbox) := by rw [← hlast]; exact List.mem_filter.2 ⟨hm, by simp⟩
          have hnil := List.eq_nil_of_sublist_nil this
          rw [List.map_eq_nil_iff] at hnil
          rw [hnil] at hm'
          cases hm'
        have hsm : ∀ c ∈ pubCalls (pubPart P), ∀ m, c.prepare minCompress comp = some m → m.payload.length < 2 ^ 32 := by
          intro c hc
          refine hsmall c ?_
          rw [hH]
          unfold pubPart
          rw [List.filterMap_append]
          exact (pubCalls_pre _ _).subset hc
        obtain ⟨pre, de, post, k1, ⟨k2, k2'⟩, k3⟩ := C91_end_to_end L D max authn boundary minCompress bufferSize comp hcomp (pubPart P) _ x' hx' hsm e hreach m.conn s hs' hconn
        obtain ⟨Q, R, hQ, hQp⟩ := part_split k1
        -- when that session was started
        have hQs : subPart (Q ++ [NetAct.pub (.driver de)]) = subPart Q := by unfold subPart; rw [List.filterMap_append]; simp [NetAct.atSub]
        have hQp' : pubPart (Q ++ [NetAct.pub (.driver de)]) = pre ++ [.driver de] := by rw [← hQp]; unfold pubPart; rw [List.filterMap_append]; rfl
        have hPs : subPart P = subPart Q ++ subPart R := by rw [hQ]; unfold subPart; rw [List.filterMap_append]; rfl
        obtain ⟨q, hq, hqr⟩ := sub_run_pre (hPs ▸ hrun)
        have hHQ : H = (Q ++ [NetAct.pub (.driver de)]) ++ (R ++ suf) := by rw [hH, hQ]; simp
        obtain ⟨df, hdf⟩ : ∃ df, d0.run L D (subPart H) = .ok df := ⟨d, hr⟩
        have hdfe : ∀ v : Nat, e.addrs[v]? = some a → df.addrs[v]? = some a := by
          have hHs : subPart H = subPart P ++ subPart suf := by rw [hH]; unfold subPart; rw [List.filterMap_append]
          obtain ⟨y, hy, hy'⟩ := sub_run_pre (hHs ▸ hdf)
          rw [hrun] at hy
          cases hy
          obtain ⟨more, hmore⟩ := addrs_pre (run_steps _ _ _ hy')
          intro v hv
          rw [← hmore, List.getElem?_append_left (List.getElem?_eq_some_iff.1 hv).1]
          exact hv
        have hrq : Reach L D q := ⟨opts, now, d0, _, h0, hq⟩
        have hcausal := hnet.causal (Q ++ [NetAct.pub (.driver de)]) (R ++ suf) q df hHQ (by rw [hQs]; exact hq) hdf m.conn (hdfe _ hma)
          (by rw [hQp']; exact k2')
        obtain ⟨N, hN1, hN2, hN3⟩ : ∃ N, N ≤ q.addrs.length ∧ (∀ v, lookup a q.pubs = some (.active v) → N ≤ v) ∧
            ∀ v : Nat, e.addrs[v]? = some a → N ≤ v → ¬ v < m.conn := by
          obtain ⟨more, hmore⟩ := addrs_pre (run_steps _ _ _ hqr)
          rcases hcausal with hlt | ⟨ht, hall⟩
          · have hqa : q.addrs[m.conn]? = some a := by
              rw [← hmore, List.getElem?_append_left hlt] at hma
              exact hma
            refine ⟨m.conn, by omega, ?_, fun v _ h => by omega⟩
            intro v hv
            exact hrq.order.last a v hv m.conn hqa
          · refine ⟨q.addrs.length, Nat.le_refl _, ?_, ?_⟩
            · intro v hv
              exact absurd (hrq.inv.tasksKeys a ht) (hrq.inv.free a v hv)
            · intro v hv hle hlt
              have := hall v hlt (hdfe v hv)
              omega
        obtain ⟨new, w1, w2, -, -⟩ := (run_steps _ _ _ hqr).past hrq.inv a N hN1 hN2
        -- so the older connections gave all they gave before
        have hqc : q.closed = false := by
          cases hqc : q.closed with
          | false => rfl
          | true =>
            have := (steps_closed (run_steps _ _ _ hqr) hqc).1
            rw [hc] at this; cases this
        have hle : (fromAddr a (e.received ++ e.inbox)).filter (fun y => decide (y.conn < m.conn)) =
            (fromAddr a (q.received ++ q.inbox)).filter (fun y => decide (y.conn < m.conn)) := by
          obtain ⟨rest, r1, r2⟩ := hie.inbox
          obtain ⟨rest', r3, r4⟩ := hrq.inv.inbox
          rw [r2 hc, List.append_nil] at r1
          rw [r4 hqc, List.append_nil] at r3
          obtain ⟨more, hmore⟩ := addrs_pre (run_steps _ _ _ hqr)
          rw [← r1, ← r3, w1, List.filterMap_append]
          have hold : q.fates.filterMap (inMsgOf D e.addrs) = q.fates.filterMap (inMsgOf D q.addrs) := by
            rw [← hmore]
            exact inMsgOf_more _ _ _ (fun y hy => by rw [hrq.inv.len]; exact hrq.inv.fateLt y hy)
          rw [hold]
          unfold fromAddr
          rw [List.filter_append, List.filter_append]
          have hnone : ((new.filterMap (inMsgOf D e.addrs)).filter fun y => decide (y.source = a)).filter (fun y => decide (y.conn < m.conn)) = [] := by
            rw [List.filter_eq_nil_iff]
            intro y hy hlt
            obtain ⟨g1, g2⟩ := List.mem_filter.1 hy
            obtain ⟨z, hz, hzy⟩ := List.mem_filterMap.1 g1
            obtain ⟨j1, j2, -⟩ := inMsgOf_conn hzy
            rw [of_decide_eq_true g2] at j2
            have hlt : y.conn < m.conn := of_decide_eq_true hlt
            exact hN3 y.conn j2 (by rw [j1]; exact w2 z hz (by rw [← j1]; exact j2)) hlt
          rw [hnone, List.append_nil]
        have hQlen : Q.length ≤ n := by
          have : P.length = Q.length + (R.length + 1) := by rw [hQ]; simp
          omega
        obtain ⟨-, hQsub⟩ := ih Q _ q hQlen (by rw [hHQ, List.append_assoc]) hq
        rw [hsplit, hlast, hle, List.map_append]
        have hcalls : pubCalls (pubPart P) = pubCalls (pubPart Q) ++ callsAfter pre (.driver de :: post) := by
          rw [hQp, k1]
          unfold callsAfter
          obtain ⟨z, hz⟩ := pubCalls_pre pre (.driver de :: post)
          rw [← hz, List.drop_left]
        rw [hcalls, List.map_append]
        refine List.Sublist.append (List.Sublist.trans (List.Sublist.map _ List.filter_sublist) hQsub) k3

/-! ## A case -/

namespace Twice
open E2E

/-- The two ends at a moment: what `OneNet` asks of it (`fa`: the addresses of all connections there will be). -/
def momentOk (peer : Nat → Nat) (fa : List Nat) (s : Pub.Server Nat) (d : Driver Nat) : Bool :=
  ((List.range d.sessions.length).all fun u => match d.sessions[u]? with
    | none => true
    | some t => decide (readSoFar t.input0 t.input = []) || match s.ses[peer u]? with
      | none => false
      | some x => decide (readSoFar t.input0 t.input <+: x.task.sess.wr.wire ++ x.task.sess.wr.buf) &&
          decide (readSoFar x.input x.task.sess.input <+: t.wr.wire ++ t.wr.buf)) &&
  (List.range fa.length).all fun u => decide (s.ses.length ≤ peer u) || decide (u < d.addrs.length) ||
    (decide (5 ∈ d.tasks) && (List.range u).all fun v => decide (v < d.addrs.length))

def netOk (peer : Nat → Nat) (fa : List Nat) : Pub.Server Nat → Driver Nat → List (NetAct Nat) → Bool
  | s, d, acts => momentOk peer fa s d && match acts with
    | [] => decide (d.addrs = fa)
    | .pub x :: as => netOk peer fa (s.act Lossy.strict x) d as
    | .sub x :: as => match d.act Lossy.strict noDec x with
      | .ok d => netOk peer fa s d as
      | .panic => false

def frame (x : UInt8) : Bytes := PubSub.encode ⟨⟨0, 1, [97], 7, 0, 1⟩, [x]⟩

/-- A client's connection at the publisher. -/
def client : MsgRs.Conn Nat := ⟨0, some 0, ⟨[.data subA], [], [], []⟩⟩

def accept : List (NetAct Nat) := [.pub (.driver ⟨none, none, some client⟩), .pub (.driver ⟨none, some (0, true), none⟩), .pub (.driver ⟨none, none, none⟩)]

def serve (i : Nat) : List (NetAct Nat) := List.replicate 4 (.pub (.session i E2E.env))

def use (u : Nat) : List (NetAct Nat) := List.replicate 4 (.sub (.session u eager))

/-- Subscribe, connect, get `1`; disconnect, connect again, get `3`. In between `2` is published. -/
def hist : List (NetAct Nat) :=
  [.pub (.bind some [80]), .sub (.call (.subscribe ['a'])), .sub (.call (.connect 5)), .sub (.iter ⟨[], [], none⟩), .sub (.iter ⟨[], [], none⟩)] ++ accept ++
  [.sub (.iter ⟨[5], [], conn [.pending, .pending, .pending, .pending, .data (frame 1)]⟩)] ++ use 0 ++ serve 0 ++ [.pub (.publish ['a'] [1])] ++ serve 0 ++ use 0 ++
  List.replicate 2 (.sub (.iter ⟨[5], [], none⟩)) ++
  [.sub (.call (.disconnect 5)), .sub (.call (.connect 5)), .pub (.publish ['a'] [2]), .sub (.iter ⟨[5], [], none⟩), .sub (.iter ⟨[], [], none⟩), .sub (.iter ⟨[], [], none⟩)] ++
  accept ++
  [.sub (.iter ⟨[5], [], conn [.pending, .pending, .pending, .pending, .data (frame 3)]⟩)] ++ use 1 ++ serve 1 ++ [.pub (.publish ['a'] [3])] ++ serve 1 ++ use 1 ++
  List.replicate 2 (.sub (.iter ⟨[5], [], none⟩)) ++ [.sub (.call .recv)]

theorem netOk_spec (peer : Nat → Nat) (fa : List Nat) (H : List (NetAct Nat)) : ∀ (s : Pub.Server Nat) (d : Driver Nat), netOk peer fa s d H = true →
    (∀ pre suf e, H = pre ++ suf → d.run Lossy.strict noDec (subPart pre) = .ok e → momentOk peer fa (s.run Lossy.strict (pubPart pre)) e = true) ∧
    ∃ e, d.run Lossy.strict noDec (subPart H) = .ok e ∧ e.addrs = fa := by
  induction H with
  | nil =>
    intro s d h
    unfold netOk at h
    simp only [Bool.and_eq_true] at h
    refine ⟨?_, d, rfl, of_decide_eq_true h.2⟩
    intro pre suf e hps hr
    have : pre = [] := (List.append_eq_nil_iff.1 hps.symm).1
    subst this
    cases hr
    exact h.1
  | cons c H ih =>
    intro s d h
    unfold netOk at h
    simp only [Bool.and_eq_true] at h
    obtain ⟨h0, h1⟩ := h
    cases c with
    | pub x =>
      simp only at h1
      obtain ⟨g1, g2⟩ := ih _ _ h1
      refine ⟨?_, g2⟩
      intro pre suf e hps hr
      cases pre with
      | nil => cases hr; exact h0
      | cons y pre =>
        simp only [List.cons_append, List.cons.injEq] at hps
        obtain ⟨rfl, hps⟩ := hps
        exact g1 pre suf e hps hr
    | sub x =>
      simp only at h1
      cases hx : d.act Lossy.strict noDec x with
      | panic => rw [hx] at h1; cases h1
      | ok d' =>
        rw [hx] at h1
        obtain ⟨g1, e', g2, g3⟩ := ih _ _ h1
        have hrun : ∀ l, d.run Lossy.strict noDec (subPart (.sub x :: l)) = d'.run Lossy.strict noDec (subPart l) := by
          intro l
          show d.run Lossy.strict noDec (x :: subPart l) = _
          rw [Driver.run, hx]
          rfl
        refine ⟨?_, e', by rw [hrun]; exact g2, g3⟩
        intro pre suf e hps hr
        cases pre with
        | nil => cases hr; exact h0
        | cons y pre =>
          simp only [List.cons_append, List.cons.injEq] at hps
          obtain ⟨rfl, hps⟩ := hps
          rw [hrun] at hr
          exact g1 pre suf e hps hr

theorem netOk_oneNet {peer : Nat → Nat} {fa : List Nat} {H : List (NetAct Nat)} {srv : Pub.Server Nat} {d0 : Driver Nat} (hk1 : netOk peer fa srv d0 H = true) :
    OneNet Lossy.strict noDec srv d0 5 peer H ∧ ∃ d, d0.run Lossy.strict noDec (subPart H) = .ok d := by
  obtain ⟨g1, d, g2, g3⟩ := netOk_spec _ _ _ _ _ hk1
  refine ⟨⟨?_, ?_⟩, d, g2⟩
  · intro pre suf e hps hr u t ht _
    have := g1 pre suf e hps hr
    unfold momentOk at this
    simp only [Bool.and_eq_true] at this
    have := List.all_eq_true.1 this.1 u (List.mem_range.2 (List.getElem?_eq_some_iff.1 ht).1)
    rw [ht] at this
    simp only [Bool.or_eq_true] at this
    rcases this with h | h
    · exact .inl (of_decide_eq_true h)
    · right
      cases hx : (srv.run Lossy.strict (pubPart pre)).ses[peer u]? with
      | none => rw [hx] at h; cases h
      | some x =>
        rw [hx] at h
        simp only [Bool.and_eq_true] at h
        exact ⟨x, rfl, of_decide_eq_true h.1, of_decide_eq_true h.2⟩
  · intro pre suf e df hps hr hdf u hu hpu
    rw [g2] at hdf
    cases hdf
    rw [g3] at hu
    have := g1 pre suf e hps hr
    unfold momentOk at this
    simp only [Bool.and_eq_true] at this
    have := List.all_eq_true.1 this.2 u (List.mem_range.2 (List.getElem?_eq_some_iff.1 hu).1)
    simp only [Bool.or_eq_true, Bool.and_eq_true] at this
    rcases this with (h | h) | ⟨h1, h2⟩
    · have := of_decide_eq_true h
      omega
    · exact .inl (of_decide_eq_true h)
    · refine .inr ⟨of_decide_eq_true h1, ?_⟩
      intro v hv _
      exact of_decide_eq_true (List.all_eq_true.1 h2 v (List.mem_range.2 hv))

theorem hist_ok : (match (Driver.new { } 0 : R (Driver Nat)) with
    | .ok d => netOk id [5, 5] (Pub.Server.new none none 8192 10 8 none) d hist && (match d.run Lossy.strict noDec (subPart hist) with
      | .ok e => decide ((e.received ++ e.inbox).map (fun m : InMsg Nat => (m.source, m.payload, m.conn)) = [(5, [1], 0), (5, [3], 1)])
      | .panic => false)
    | .panic => false) = true := by decide +kernel

/-- All hypotheses of `C110_reconnects` are met by this history, in which the user gets a message over each of two connections. -/
example : ∃ d0 d : Driver Nat, Driver.new { } 0 = .ok d0 ∧
    OneNet Lossy.strict noDec (Pub.Server.new none none 8192 10 8 none) d0 5 id hist ∧
    (∀ c ∈ pubCalls (pubPart hist), ∀ m, c.prepare 10 none = some m → m.payload.length < 2 ^ 32) ∧
    d0.run Lossy.strict noDec (subPart hist) = .ok d ∧
    (fromAddr 5 (d.received ++ d.inbox)).map (fun m => (m.payload, m.conn)) = [([1], 0), ([3], 1)] ∧
    (pubCalls (pubPart hist)).map (·.payload) = [[1], [2], [3]] := by
  have hk := hist_ok
  cases h0 : (Driver.new { } 0 : R (Driver Nat)) with
  | panic => rw [h0] at hk; cases hk
  | ok d0 =>
    rw [h0] at hk
    simp only [Bool.and_eq_true] at hk
    obtain ⟨hk1, hk2⟩ := hk
    obtain ⟨hn, d, g2⟩ := netOk_oneNet hk1
    rw [g2] at hk2
    have hk2 := of_decide_eq_true hk2
    refine ⟨d0, d, rfl, hn, ?_, g2, ?_, by decide +kernel⟩
    · have hc : pubCalls (pubPart hist) = [⟨false, ['a'], [1]⟩, ⟨false, ['a'], [2]⟩, ⟨false, ['a'], [3]⟩] := by decide +kernel
      rw [hc]
      intro c hc m hm
      have : m.payload.length = 1 := by
        simp only [List.mem_cons, List.not_mem_nil, or_false] at hc
        rcases hc with rfl | rfl | rfl <;>
        · have h := hm
          unfold PubCall.prepare publishPrepare at h
          simp at h
          rw [← h]
          rfl
      rw [this]
      decide
    · have hsrc : ∀ l : List (InMsg Nat), l.map (fun m : InMsg Nat => (m.source, m.payload, m.conn)) = [(5, [1], 0), (5, [3], 1)] →
          (fromAddr 5 l).map (fun m => (m.payload, m.conn)) = [([1], 0), ([3], 1)] := by
        intro l hl
        obtain ⟨x, l, rfl, hx, hl⟩ := List.map_eq_cons_iff.1 hl
        obtain ⟨y, l, rfl, hy, hl⟩ := List.map_eq_cons_iff.1 hl
        have := List.map_eq_nil_iff.1 hl
        subst this
        simp only [Prod.mk.injEq] at hx hy
        simp [fromAddr, hx, hy]
      exact hsrc _ hk2

end Twice

end MsgRs.Props
