import Verif.Proofs.SubStay
/-!
# Sessions do not end on account of short topics
-/
namespace MsgRs.Sub
open MsgRs
variable {A : Type} [DecidableEq A] {L : Lossy} {D : Decompressors}

/-- No session ended on its own account. -/
def Unbroken (d : Driver A) : Prop := ∀ (u : Nat) (s : Session), d.sessions[u]? = some s → s.over = true → s.alive = false

/-- The sessions are those of before, as far as this is concerned. -/
theorem Unbroken.of {d e : Driver A} (h : Unbroken d) (hs : ∀ (u : Nat) (s' : Session), e.sessions[u]? = some s' →
    s'.over = false ∨ ∃ s, d.sessions[u]? = some s ∧ s'.over = s.over ∧ (s'.alive = s.alive ∨ s'.alive = false)) : Unbroken e := by
  intro u s' hu ho
  rcases hs u s' hu with h1 | ⟨s, h1, h2, h3⟩
  · rw [h1] at ho; cases ho
  · rcases h3 with h3 | h3
    · rw [h3]; exact h u s h1 (h2 ▸ ho)
    · exact h3

theorem Unbroken.set {d : Driver A} (h : Unbroken d) {u : Nat} {s s' : Session} (hu : d.sessions[u]? = some s)
    (ho : s'.over = false ∨ s'.over = s.over) (ha : s'.alive = s.alive) : Unbroken { d with sessions := d.sessions.set u s' } := by
  refine h.of fun v w hv => ?_
  rcases get_set hu hv with ⟨rfl, rfl⟩ | ⟨-, hw⟩
  · rcases ho with ho | ho
    · exact .inl ho
    · exact .inr ⟨s, hu, ho, .inl ha⟩
  · exact .inr ⟨w, hw, rfl, .inl rfl⟩

theorem Unbroken.hang {d : Driver A} (h : Unbroken d) (a : A) (pubs : List (A × PState)) (st : List (A × Nat)) :
    Unbroken { d with sessions := (d.hangUp a).sessions, pubs, stats := st } := by
  refine h.of fun v w hv => ?_
  simp only at hv
  unfold Driver.hangUp at hv
  split at hv
  · split at hv
    · rename_i u _ s hs
      simp only at hv
      rcases get_set hs hv with ⟨rfl, rfl⟩ | ⟨-, hw⟩
      · exact .inr ⟨s, hs, rfl, .inr rfl⟩
      · exact .inr ⟨w, hw, rfl, .inl rfl⟩
    · exact .inr ⟨w, hv, rfl, .inl rfl⟩
  · exact .inr ⟨w, hv, rfl, .inl rfl⟩

theorem Unbroken.reset {d : Driver A} (h : Unbroken d) (a : A) : Unbroken (d.resetPublisher a) := by
  rw [reset_eq]; exact h.hang a _ _

theorem offer_alive (s : Session) (c : Cmd) : (s.offer c).2.alive = s.alive := by
  unfold Session.offer; split
  · rfl
  · split <;> rfl

theorem Unbroken.tell {d : Driver A} (h : Unbroken d) (c : Cmd) (l : List (A × PState)) : Unbroken (d.tell c l) :=
  tell_induct c (fun _ _ s h hu => h.set hu (.inr (offer_over s c)) (offer_alive s c)) (fun _ a h => h.reset a) l d h

theorem Unbroken.step {d e : Driver A} (hd : DInv L D d) (hti : TInv d) (hs : DStep L D d e) (h : Unbroken d)
    (hshort : ∀ c ∈ d.processed, c.short 65525) : Unbroken e := by
  cases hs with
  | session v s s' hv hs =>
    intro u w hw ho
    rcases get_set hv hw with ⟨rfl, rfl⟩ | ⟨-, hw⟩
    · cases hs with
      | overlong c cs now ho' hc hm =>
        exfalso
        have hi := hd.sess u s hv
        have hq := hi.queued ho'
        have hmem : c ∈ s.offered := hi.offered.subset (by rw [hq, hc]; simp)
        have := hti.src u s hv c hmem
        obtain ⟨x, hx1, hx2⟩ := List.mem_filterMap.1 this
        obtain ⟨m, hm'⟩ := Cmd.msg_ok hx2 (hshort x hx1) now
        rw [hm] at hm'; cases hm'
      | hungUp ho' hc ha => exact ha
      | readItem m rd input now ho' hp =>
        exfalso
        simp only [Session.onIncoming] at ho
        split at ho <;> · simp only at ho; rw [ho'] at ho; cases ho
      | write wr fl ho' => exfalso; simp only at ho; rw [ho'] at ho; cases ho
      | readNone o rd input ho' => exfalso; simp only at ho; rw [ho'] at ho; cases ho
      | send m ms ho' => exfalso; simp only at ho; rw [ho'] at ho; cases ho
      | lose m ms ho' => exfalso; simp only at ho; rw [ho'] at ho; cases ho
      | rotate m ms ho' => exfalso; simp only at ho; rw [ho'] at ho; cases ho
      | cmd c cs now m ho' => exfalso; simp only at ho; rw [ho'] at ho; cases ho
    · exact h u w hw ho
  | command c q hq =>
    have h0 : Unbroken { d with cmdq := q, processed := d.processed ++ [c] } := h
    generalize { d with cmdq := q, processed := d.processed ++ [c] } = d0 at *
    cases c with
    | shutdown => exact h0
    | subscribe t =>
      simp only [Driver.onCommand, Driver.subscribe]
      split
      · exact h0
      · exact Unbroken.tell (d := { d0 with topics := d0.topics ++ [t] }) h0 _ _
    | unsubscribe t =>
      simp only [Driver.onCommand, Driver.unsubscribe]
      split
      · exact Unbroken.tell (d := { d0 with topics := d0.topics.filter (· ≠ t) }) h0 _ _
      · exact h0
    | connect b =>
      simp only [Driver.onCommand]
      split
      · exact h0
      · refine Unbroken.reset ?_ b
        unfold Driver.connect
        split <;> exact h0
    | disconnect b =>
      simp only [Driver.onCommand]
      split
      · rw [hangUp_eq]; exact h0.hang b _ _
      · exact h0
  | take b v s t ms payload hb hv ht hdec =>
    have := h.set hv (s' := { s with toDriver := ms }) (.inr rfl) rfl
    unfold Driver.deliver
    simp only
    repeat' split
    all_goals exact this
  | skip b v s t ms hb hv ht hdec => exact h.set hv (s' := { s with toDriver := ms }) (.inr rfl) rfl
  | lost b v s hb hv ht ho => exact h.reset b
  | arm b v s hb hv ht ho => exact h.set hv (s' := { s with armed := true }) (.inr rfl) rfl
  | retry b k hb => unfold Driver.connect; split <;> exact h
  | joinOk i b order out via input ht hr =>
    unfold Driver.onConnection
    split
    · exact h
    · refine h.of fun v w hv => ?_
      simp only at hv
      rw [List.getElem?_append] at hv
      split at hv
      · exact .inr ⟨w, hv, rfl, .inl rfl⟩
      · left
        have : ∀ ts (s : Session), (offerAll s ts).over = s.over := by
          intro ts
          induction ts with
          | nil => exact fun _ => rfl
          | cons t ts ih => intro s; simp only [offerAll]; rw [ih, offer_over]
        have hw : w ∈ [offerAll (Session.new d.opts.readBuffer via input) (if order.isPerm d.topics then order else d.topics)] :=
          List.mem_of_getElem? hv
        simp only [List.mem_singleton] at hw
        rw [hw, this]
        rfl
  | _ => exact h

theorem Unbroken.steps {d e : Driver A} (hd : DInv L D d) (hti : TInv d) (hs : DSteps L D d e) (h : Unbroken d)
    (hshort : ∀ c ∈ e.processed, c.short 65525) : Unbroken e := by
  induction hs with
  | refl => exact h
  | @step e f h1 hs ih =>
    obtain ⟨-, hp, -⟩ := hs.log
    have hsh : ∀ c ∈ e.processed, c.short 65525 := fun c hc => hshort c (hp.subset hc)
    exact Unbroken.step (hd.steps h1) (h1.induct TInv.step ⟨hti, hd⟩).1 hs (ih hsh) hsh

end MsgRs.Sub
