import Verif.Proofs.SubStay
/-!
# What is delivered to the user of a subscriber socket
-/
namespace MsgRs.Sub
open MsgRs

variable {A : Type} [DecidableEq A] {L : Lossy} {D : Decompressors}

/-- What the user should see of a forwarded message. -/
def shownT (D : Decompressors) (t : TopicMsg) : Option (Str × Bytes) :=
  match tryDecompress D t.ctype t.payload with
  | some p => some (t.topic, p)
  | none => none

theorem shownT_ofWire (m : PubSub.Message) : shownT D (TopicMsg.ofWire L m) = shown L D m := rfl

theorem inMsgOf_conn {addrs : List A} {x : Nat × TopicMsg × Fate} {m : InMsg A} (h : inMsgOf D addrs x = some m) :
    m.conn = x.1 ∧ addrs[m.conn]? = some m.source ∧ shownT D x.2.1 = some (m.topic, m.payload) := by
  obtain ⟨u, t, f⟩ := x
  cases f with
  | delivered =>
    simp only [inMsgOf] at h
    split at h
    · rename_i a p ha hp
      cases h
      exact ⟨rfl, ha, by simp only [shownT, hp]⟩
    · cases h
  | _ => cases h

theorem delivered_sublist (addrs : List A) (u : Nat) (fates : List (Nat × TopicMsg × Fate)) :
    ((ofConn u (fates.filterMap (inMsgOf D addrs))).map fun m => (m.topic, m.payload)).Sublist
      ((takenFrom fates u).filterMap (shownT D)) := by
  induction fates with
  | nil => exact List.Sublist.refl _
  | cons x l ih =>
    have ht : takenFrom (x :: l) u = (if x.1 = u then [x.2.1] else []) ++ takenFrom l u := by
      unfold takenFrom
      by_cases h : x.1 = u <;> simp [h]
    rw [ht, List.filterMap_append, List.filterMap_cons]
    cases hm : inMsgOf D addrs x with
    | none => simpa using (List.nil_sublist _).append ih
    | some m =>
      obtain ⟨h1, -, h3⟩ := inMsgOf_conn hm
      simp only [ofConn, List.filter_cons]
      by_cases hu : x.1 = u
      · simp only [h1, hu, decide_true, if_true, List.map_cons, List.filterMap_cons, h3, List.filterMap_nil]
        exact ih.cons_cons _
      · simp only [h1, hu, decide_false, Bool.false_eq_true, if_false, List.filterMap_nil, List.nil_append]
        exact ih

theorem delivered_eq (addrs : List A) (u : Nat) (a : A) (ha : addrs[u]? = some a) (fates : List (Nat × TopicMsg × Fate))
    (hf : ∀ x ∈ fates, x.1 = u → x.2.2 = .delivered ∨ x.2.2 = .undecodable)
    (hun : ∀ x ∈ fates, x.2.2 = .undecodable → shownT D x.2.1 = none) :
    ((ofConn u (fates.filterMap (inMsgOf D addrs))).map fun m => (m.topic, m.payload)) =
      (takenFrom fates u).filterMap (shownT D) := by
  induction fates with
  | nil => rfl
  | cons x l ih =>
    have ih := ih (fun y hy => hf y (List.mem_cons_of_mem _ hy)) (fun y hy => hun y (List.mem_cons_of_mem _ hy))
    have ht : takenFrom (x :: l) u = (if x.1 = u then [x.2.1] else []) ++ takenFrom l u := by
      unfold takenFrom
      by_cases h : x.1 = u <;> simp [h]
    rw [ht, List.filterMap_append, List.filterMap_cons]
    cases hm : inMsgOf D addrs x with
    | none =>
      simp only
      rw [ih]
      by_cases hu : x.1 = u
      · have hno : shownT D x.2.1 = none := by
          rcases hf x List.mem_cons_self hu with h | h
          · obtain ⟨v, t, f⟩ := x
            simp only at h hu; subst h; subst hu
            simp only [inMsgOf, ha] at hm
            unfold shownT
            cases ht : tryDecompress D t.ctype t.payload with
            | none => rfl
            | some p => rw [ht] at hm; cases hm
          · exact hun x List.mem_cons_self h
        simp [hu, hno]
      · simp [hu]
    | some m =>
      obtain ⟨h1, -, h3⟩ := inMsgOf_conn hm
      simp only [ofConn, List.filter_cons]
      by_cases hu : x.1 = u
      · simp only [h1, hu, decide_true, if_true, List.map_cons, List.filterMap_cons, h3, List.filterMap_nil]
        rw [← ih]; rfl
      · simp only [h1, hu, decide_false, Bool.false_eq_true, if_false, List.filterMap_nil, List.nil_append]
        exact ih

/-- Recorded fates are honest. -/
theorem Reach.undecodable {d : Driver A} (h : Reach L D d) :
    ∀ x ∈ d.fates, x.2.2 = .undecodable → shownT D x.2.1 = none := by
  obtain ⟨opts, now, d0, acts, h0, h1⟩ := h
  refine (run_steps acts d0 d h1).induct (P := fun d => ∀ x ∈ d.fates, x.2.2 = .undecodable → shownT D x.2.1 = none) ?_ ?_
  · intro d e h hi
    cases h with
    | command c q hq => rw [(onCommand_same _ c).2.2.2.2.2.2.2.1]; exact hi
    | take a u s t ms payload hl hu ht hd =>
      unfold Driver.deliver
      simp only
      repeat' split
      all_goals
        intro x hx hxu
        rcases List.mem_append.1 hx with h | h
        · exact hi x h hxu
        · simp at h; subst h; cases hxu
    | skip a u s t ms hl hu ht hd =>
      intro x hx hxu
      rcases List.mem_append.1 hx with h | h
      · exact hi x h hxu
      · simp at h; subst h; simp [shownT, hd]
    | lost a u s hl hu ht ho => rw [reset_eq]; exact hi
    | retry a b hl => unfold Driver.connect; split <;> exact hi
    | joinOk i a order out via input ht hr =>
      rw [(onConnection_same _ order a via input).2.2.2.2.2.2.2.1]; exact hi
    | _ => exact hi
  · unfold Driver.new at h0
    split at h0
    · cases h0
    · cases h0; intro x hx; cases hx

/-- Along any history: addresses of connections do not change, and what was delivered stays delivered, in
order. -/
theorem DSteps.grow {d e : Driver A} (h : DSteps L D d e) :
    d.addrs <+: e.addrs ∧ d.received <+: e.received ∧
    (e.closed = false → d.received ++ d.inbox <+: e.received ++ e.inbox) ∧ (d.closed = true → e.closed = true) ∧
    e.opts = d.opts := by
  induction h with
  | refl => exact ⟨List.prefix_rfl, List.prefix_rfl, fun _ => List.prefix_rfl, fun h => h, rfl⟩
  | @step e f _ hs ih =>
    obtain ⟨h1, h2, h3, h4, h5⟩ := ih
    have hcl := hs.log.2.2
    suffices e.addrs <+: f.addrs ∧ e.received <+: f.received ∧
        (f.closed = false → e.received ++ e.inbox <+: f.received ++ f.inbox) ∧ f.opts = e.opts by
      obtain ⟨g1, g2, g3, g4⟩ := this
      refine ⟨h1.trans g1, h2.trans g2, fun hc => ?_, fun hc => (hcl (h4 hc)).2, g4.trans h5⟩
      refine (h3 ?_).trans (g3 hc)
      cases he : e.closed with
      | false => rfl
      | true => rw [(hcl he).2] at hc; cases hc
    have base : e.addrs <+: e.addrs ∧ e.received <+: e.received ∧
        (e.closed = false → e.received ++ e.inbox <+: e.received ++ e.inbox) ∧ e.opts = e.opts :=
      ⟨List.prefix_rfl, List.prefix_rfl, fun _ => List.prefix_rfl, rfl⟩
    cases hs with
    | recv m ms hc hm => exact ⟨List.prefix_rfl, List.prefix_append _ _, fun _ => by simp [hm], rfl⟩
    | drop hc => exact ⟨List.prefix_rfl, List.prefix_rfl, fun h => (by cases h), rfl⟩
    | command c q hq =>
      obtain ⟨-, -, k3, k4, k5, k6, k7, -⟩ := onCommand_same { e with cmdq := q, processed := e.processed ++ [c] } c
      rw [k3, k4, k5, k6, k7]; exact base
    | take a u s t ms payload hl hu ht hd =>
      unfold Driver.deliver
      simp only
      repeat' split
      · exact base
      · exact ⟨List.prefix_rfl, List.prefix_rfl, fun _ => by rw [← List.append_assoc]; exact List.prefix_append _ _, rfl⟩
      · exact base
    | lost a u s hl hu ht ho => rw [reset_eq]; exact base
    | retry a b hl => unfold Driver.connect; split <;> exact base
    | joinOk i a order out via input ht hr =>
      obtain ⟨-, -, -, -, k5, k6, k7, -, k9, -⟩ := onConnection_same { e with tasks := e.tasks.eraseIdx i, keys := e.keys.filter (· ≠ a) } order a via input
      rw [k5, k6, k7, k9]
      refine ⟨?_, List.prefix_rfl, fun _ => List.prefix_rfl, rfl⟩
      unfold Driver.onConnection
      split
      · exact List.prefix_rfl
      · exact List.prefix_append _ _
    | _ => exact base

/-- A reachable state reaches reachable states. -/
theorem Reach.run {d e : Driver A} (h : Reach L D d) {acts : List (Act A)} (hr : d.run L D acts = .ok e) :
    Reach L D e := by
  obtain ⟨opts, now, d0, acts0, h0, h1⟩ := h
  refine ⟨opts, now, d0, acts0 ++ acts, h0, ?_⟩
  clear h0
  induction acts0 generalizing d0 with
  | nil => simp only [Driver.run] at h1; cases h1; exact hr
  | cons a as ih =>
    simp only [Driver.run, List.cons_append] at h1 ⊢
    cases hx : d0.act L D a with
    | panic => rw [hx] at h1; cases h1
    | ok d1 => rw [hx] at h1; exact ih d1 h1

end MsgRs.Sub
