import Verif.Proofs.SubAloneRun
import Verif.Spec.SubRuns
/-!
# C117: publishers of a subscriber do not affect each other
-/
namespace MsgRs.Props
open MsgRs MsgRs.Sub
open scoped List

section
variable {A : Type} [DecidableEq A] {L : Lossy} {D : Decompressors}

/-- What the user gets of a message that was taken. -/
def userSees (D : Decompressors) (x : Nat × TopicMsg × Bool) : Option (Str × Bytes) :=
  if x.2.2 then (tryDecompress D x.2.1.ctype x.2.1.payload).map fun p => (x.2.1.topic, p) else none

theorem delivered_taken (a : A) (addrs : List A) (fates : List (Nat × TopicMsg × Fate)) :
    (((fates.filterMap (inMsgOf D addrs)).filter fun m => decide (m.source = a)).map fun m => (m.topic, m.payload)) <+
      (fates.filterMap fun x => if addrs[x.1]? = some a then some (rank a addrs x.1, x.2.1, decide (x.2.2 ≠ .undecodable)) else none).filterMap (userSees D) ∧
    ((∀ x ∈ fates, addrs[x.1]? = some a → x.2.2 = .delivered ∨ x.2.2 = .undecodable) →
      (((fates.filterMap (inMsgOf D addrs)).filter fun m => decide (m.source = a)).map fun m => (m.topic, m.payload)) =
        (fates.filterMap fun x => if addrs[x.1]? = some a then some (rank a addrs x.1, x.2.1, decide (x.2.2 ≠ .undecodable)) else none).filterMap (userSees D)) := by
  induction fates with
  | nil => exact ⟨List.Sublist.slnil, fun _ => rfl⟩
  | cons x fs ih =>
    obtain ⟨u, t, f⟩ := x
    have ih1 := ih.1
    have ih2 : (∀ x ∈ (u, t, f) :: fs, addrs[x.1]? = some a → x.2.2 = .delivered ∨ x.2.2 = .undecodable) → _ := fun h => ih.2 fun x hx => h x (.tail _ hx)
    simp only [List.filterMap_cons]
    by_cases hu : addrs[u]? = some a
    · simp only [hu, if_true, List.filterMap_cons]
      cases f with
      | undecodable =>
        simp only [inMsgOf, userSees]
        exact ⟨ih1, ih2⟩
      | full =>
        simp only [inMsgOf]
        refine ⟨?_, fun h => (by have := h (u, t, .full) (.head _) hu; simp at this)⟩
        split
        · exact ih1
        · exact ih1.cons _
      | gone =>
        simp only [inMsgOf]
        refine ⟨?_, fun h => (by have := h (u, t, .gone) (.head _) hu; simp at this)⟩
        split
        · exact ih1
        · exact ih1.cons _
      | delivered =>
        cases ht : tryDecompress D t.ctype t.payload with
        | none =>
          simp only [inMsgOf, userSees, hu, ht]
          exact ⟨ih1, ih2⟩
        | some p =>
          simp only [inMsgOf, userSees, hu, ht]
          simp only [decide_true, List.filter_cons, if_true, List.map_cons, Option.map_some, ne_eq, reduceCtorEq, not_false_eq_true]
          exact ⟨ih1.cons_cons _, fun h => (by rw [ih2 h])⟩
    · simp only [hu, if_false]
      have hm : ∀ m, inMsgOf D addrs (u, t, f) = some m → m.source ≠ a := by
        intro m hm hs
        cases f <;> simp only [inMsgOf] at hm <;> try cases hm
        split at hm
        · rename_i b p hb _
          cases hm
          exact hu (by rw [hb, ← hs])
        · cases hm
      cases hx : inMsgOf D addrs (u, t, f) with
      | none => exact ⟨ih1, ih2⟩
      | some m =>
        simp only [List.filter_cons, hm m hx, decide_false, Bool.false_eq_true, if_false]
        exact ⟨ih1, ih2⟩

theorem aloneActs_only (a : A) : ∀ (acts : List (Act A)) (d : Driver A), ∀ x ∈ aloneActs L D a d acts, x.Only a
  | [], _, x, hx => by cases hx
  | y :: ys, d, x, hx => by
    rw [aloneActs] at hx
    rcases List.mem_append.1 hx with hx | hx
    · cases y with
      | call k => cases hx
      | dropSocket => cases hx
      | advance dt => simp only [aloneAct, List.mem_singleton] at hx; subst hx; trivial
      | session u e =>
        simp only [aloneAct] at hx
        split at hx
        · simp only [List.mem_singleton] at hx; subst hx; trivial
        · cases hx
      | iter e =>
        simp only [aloneAct] at hx
        split at hx
        · rcases List.mem_append.1 hx with hx | hx
          · have hcall : ∀ c, x ∈ aloneCall a c → x.Only a := by
              intro c hc
              cases c <;> simp only [aloneCall] at hc
              · simp only [List.mem_singleton] at hc; subst hc; trivial
              · simp only [List.mem_singleton] at hc; subst hc; trivial
              · split at hc
                · simp only [List.mem_singleton] at hc; subst hc; exact rfl
                · cases hc
              · split at hc
                · simp only [List.mem_singleton] at hc; subst hc; exact rfl
                · cases hc
              · cases hc
            have hord : ∀ b ∈ e.order.filter fun b => decide (b = a), b = a := fun b hb => (by simpa using (List.mem_filter.1 hb).2)
            unfold aloneIter at hx
            split at hx
            · cases hx
            · simp only at hx
              split at hx
              · simp only [List.mem_singleton] at hx; subst hx; exact hord
              · split at hx
                · rcases List.mem_append.1 hx with hx | hx
                  · exact hcall _ hx
                  · simp only [List.mem_singleton] at hx; subst hx; exact hord
                · simp only [List.mem_singleton] at hx; subst hx; exact hord
          · simp only [List.mem_singleton] at hx; subst hx; trivial
        · cases hx
    · split at hx
      · exact aloneActs_only a ys _ x hx
      · cases hx

theorem new_inStep {opts : Options} {now : Nat} {d0 : Driver A} (h : Driver.new opts now = .ok d0) (a : A) : InStep L D a d0 d0 ∧ Room 0 d0 := by
  have hi : DInv L D d0 := DInv.init h
  unfold Driver.new at h
  split at h
  · cases h
  · rename_i hb
    cases h
    exact ⟨⟨hi, hi, .refl a _, ⟨rfl, rfl, fun b h => (by cases h), fun b h => (by cases h), fun _ => ⟨rfl, rfl⟩, Nat.pos_of_ne_zero fun h => hb (.inl h)⟩,
      fun c h => (by cases h)⟩, ⟨Nat.le.refl, fun x h => (by cases h)⟩⟩

/-- C117: for every history of a subscriber socket and every publisher address `a`, the history `aloneActs … a` mentions no other publisher, and what happens to the publisher at `a` in it is the
same: the same sessions, which read and wrote the same and stand as they do; the same messages were taken from them, in the same order, of which the same could be decompressed; it is connected
or not alike. And the user gets there every message of `a` that it got in the original, in the same order; exactly these if in the original none of the messages of `a` was refused
for lack of room in the queue to the user and the socket was not dropped. (The iterations visit each publisher of the map once.) -/
theorem C117_as_if_alone {opts : Options} {now : Nat} {d0 d : Driver A} {acts : List (Act A)} (h0 : Driver.new opts now = .ok d0) (h : d0.run L D acts = .ok d) (a : A) :
    (∀ x ∈ aloneActs L D a d0 acts, x.Only a) ∧
    ∃ e, d0.run L D (aloneActs L D a d0 acts) = .ok e ∧ (∀ b ∈ e.addrs, b = a) ∧ ownSessions a e = ownSessions a d ∧ ownTaken a e = ownTaken a d ∧
      ((∃ u, e.Active a u) ↔ ∃ u, d.Active a u) ∧ e.topics = d.topics ∧
      ((∀ v, .iter v ∈ acts → v.order.Nodup) →
        ownReceived a d <+ ownReceived a e ∧
        (d.closed = false → (∀ x ∈ d.fates, d.addrs[x.1]? = some a → x.2.2 = .delivered ∨ x.2.2 = .undecodable) → ownReceived a d = ownReceived a e)) := by
  refine ⟨aloneActs_only a acts d0, ?_⟩
  obtain ⟨hs, hr⟩ := new_inStep (L := L) (D := D) h0 a
  obtain ⟨e, k1, k2, k3⟩ := run_alone acts hs h
  have hact : ∀ {x y : Driver A}, Same a x y → DInv L D x → DInv L D y → (∃ u, x.Active a u) → ∃ u, y.Active a u := by
    rintro x y hxy hx hy ⟨u, hu⟩
    obtain ⟨v, s, hv, -⟩ := hxy.active hx hy hu
    exact ⟨v, hv⟩
  refine ⟨e, k1, k2.lone.addrs, k2.same.sess.symm, k2.same.taken.symm, ⟨hact k2.same.symm k2.right k2.left, hact k2.same k2.left k2.right⟩, k2.same.topics.symm, fun hn => ?_⟩
  have hroom := k3 hn hr
  -- what the user of the lone socket gets
  have he : ownReceived a e = (ownTaken a d).filterMap (userSees D) := by
    obtain ⟨rest, m1, m2⟩ := k2.right.inbox
    rw [m2 k2.lone.closed, List.append_nil] at m1
    unfold ownReceived
    rw [← m1, k2.same.taken]
    exact (delivered_taken a e.addrs e.fates).2 fun x hx _ => hroom.fates x hx
  obtain ⟨rest, m1, m2⟩ := k2.left.inbox
  have hd : ownReceived a d <+ (((d.fates.filterMap (inMsgOf D d.addrs)).filter fun m => decide (m.source = a)).map fun m => (m.topic, m.payload)) := by
    unfold ownReceived
    rw [m1, List.filter_append (d.received ++ d.inbox), List.map_append]
    exact List.sublist_append_left _ _
  rw [he]
  refine ⟨hd.trans (delivered_taken a d.addrs d.fates).1, fun hc hf => ?_⟩
  rw [m2 hc, List.append_nil] at m1
  unfold ownReceived
  rw [← m1]
  exact (delivered_taken a d.addrs d.fates).2 hf

/-- C117: two histories of sockets with the same options that agree in what concerns the publisher at `a` bring its sessions to the same state, with the same messages taken from them. -/
theorem C117_isolated {opts : Options} {now : Nat} {d0 d d' : Driver A} {acts acts' : List (Act A)} (h0 : Driver.new opts now = .ok d0)
    (h : d0.run L D acts = .ok d) (h' : d0.run L D acts' = .ok d') (a : A) (hv : aloneActs L D a d0 acts = aloneActs L D a d0 acts') :
    ownSessions a d = ownSessions a d' ∧ ownTaken a d = ownTaken a d' := by
  obtain ⟨-, e, k1, -, k2, k3, -⟩ := C117_as_if_alone h0 h a
  obtain ⟨-, e', g1, -, g2, g3, -⟩ := C117_as_if_alone h0 h' a
  rw [hv, g1] at k1
  cases k1
  exact ⟨k2.symm.trans g2, k3.symm.trans g3⟩

end
/-! ### A case -/

namespace TwoPublishers

/-- Two publishers are connected; both send a message; the first sends two. -/
def acts : List (Act Nat) :=
  [.call (.trySubscribe ['a']), .call (.tryConnect 1), .call (.tryConnect 2),
   .iter { order := [] }, .iter { order := [] }, .iter { order := [1] },
   .iter { order := [1, 2], join := conn [.data (msgA 0 7 ++ msgA 0 8)] }, .iter { order := [2, 1], join := conn [.data (msgA 0 9)] },
   .session 0 eager, .session 1 eager, .iter { order := [1, 2] }, .session 0 eager, .session 1 eager, .iter { order := [2, 1] }, .call .recv]

def start : Driver Nat := { opts := { ingress := 2 }, now := 0 }

theorem start_new : Driver.new { ingress := 2 } 0 = .ok start := by rfl

def ends (acts : List (Act Nat)) (p : Driver Nat → Bool) : Bool :=
  match start.run Lossy.strict noDec acts with
  | .ok d => p d
  | .panic => false

/-- The hypotheses are met: the socket serves both publishers, and each is polled once in an iteration. The queue to the user has room for two messages only, so that the second message of the first
publisher was refused: alone it would not have been. -/
example : ends acts (fun d => decide (d.addrs = [1, 2] ∧ (ownTaken 1 d).length = 2 ∧ ownReceived 1 d = [(['a'], [7])] ∧ ownReceived 2 d = [(['a'], [9])])) = true := by decide +kernel

example : ∀ v, Act.iter v ∈ acts → v.order.Nodup := by
  intro v hv
  simp only [acts, List.mem_cons, List.not_mem_nil, or_false, Act.iter.injEq, reduceCtorEq, false_or] at hv
  rcases hv with rfl | rfl | rfl | rfl | rfl | rfl | rfl <;> decide

/-- The history of the first publisher alone. -/
example : ends (aloneActs Lossy.strict noDec 1 start acts)
    (fun d => decide (d.addrs = [1] ∧ (ownTaken 1 d).length = 2 ∧ ownReceived 1 d = [(['a'], [7]), (['a'], [8])] ∧ ownReceived 2 d = [])) = true := by decide +kernel

/-- A history in which the second publisher is never reached and sends nothing, and the user takes everything at once. -/
def acts' : List (Act Nat) :=
  [.call (.trySubscribe ['a']), .iter { order := [] }, .call (.connect 1), .iter { order := [] }, .call (.tryConnect 2), .iter { order := [1] },
   .iter { order := [2, 1], join := conn [.data (msgA 0 7 ++ msgA 0 8)] }, .iter { order := [1, 2], join := some (0, .failed) },
   .session 0 eager, .iter { order := [1, 2] }, .call .recv, .session 0 eager, .iter { order := [1] }, .call .recv]

example : ends acts' (fun d => decide (d.addrs = [1] ∧ ownReceived 1 d = [(['a'], [7]), (['a'], [8])])) = true := by decide +kernel

/-- The two histories agree in what concerns the first publisher. -/
theorem agree : aloneActs Lossy.strict noDec 1 start acts = aloneActs Lossy.strict noDec 1 start acts' := rfl

end TwoPublishers
end MsgRs.Props
