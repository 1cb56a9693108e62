import Verif.Model.PubDriver
import Verif.Proofs.Handshake
/-!
# Invariants of the publisher driver
-/
namespace MsgRs.Pub
open MsgRs

/-- Connections being served or authenticated (or being accepted). -/
def Driver.count (d : Driver A) : Nat := d.connTasks.length + d.authTasks.length + d.sessions.length

/-- A session is only there for an authenticated connection. -/
def Driver.Served (d : Driver A) : Prop :=
  ∀ c rest, (c, rest) ∈ d.sessions →
    match d.authn with
    | some f => ∃ id wire lost, hsServer f c.hs = .accepted id wire rest lost
    | none => rest = c.hs.reads

/-- No connection in the driver's hands makes its authentication task panic. -/
def Driver.Calm (d : Driver A) : Prop :=
  ∀ f, d.authn = some f → ∀ c, c ∈ d.connTasks ∨ c ∈ d.authTasks → hsServer f c.hs ≠ .panicked

structure DInv (d : Driver A) : Prop where
  le : d.count ≤ d.active
  max : ∀ m, d.max = some m → d.active ≤ m
  served : d.Served

theorem eraseIdx_mem {l : List α} {i : Nat} {x : α} (h : x ∈ l.eraseIdx i) : x ∈ l :=
  (List.eraseIdx_sublist l i).mem h

theorem eraseIdx_len {l : List α} {i : Nat} {x : α} (h : l[i]? = some x) :
    (l.eraseIdx i).length + 1 = l.length := by
  have hi : i < l.length := by
    rcases Nat.lt_or_ge i l.length with h1 | h1
    · exact h1
    · rw [List.getElem?_eq_none h1] at h; cases h
  rw [List.length_eraseIdx_of_lt hi]; omega

theorem decr_pos {n : Nat} (h : 0 < n) : decr n = n - 1 := by
  unfold decr; rw [if_neg (by omega)]

/-- What the three branches preserve. `calm`: also the equality of counter and connections, when no
authentication task panics. -/
structure Pres (d d' : Driver A) : Prop where
  inv : DInv d → DInv d'
  cfg : d'.max = d.max ∧ d'.authn = d.authn
  calm : d.Calm → d'.Calm
  eq : d.Calm → d.active = d.count → d'.active = d'.count

theorem Pres.refl (d : Driver A) : Pres d d := ⟨id, ⟨rfl, rfl⟩, id, fun _ => id⟩

theorem Pres.trans {d d' d'' : Driver A} (h : Pres d d') (h' : Pres d' d'') : Pres d d'' :=
  ⟨fun i => h'.inv (h.inv i), ⟨h'.cfg.1.trans h.cfg.1, h'.cfg.2.trans h.cfg.2⟩,
    fun c => h'.calm (h.calm c), fun c e => h'.eq (h.calm c) (h.eq c e)⟩

theorem stepJoin_pres (d : Driver A) (e : DEnv A) : Pres d (d.stepJoin e).1 := by
  unfold Driver.stepJoin
  split
  · rename_i i f hj hf
    split
    · exact Pres.refl d
    · rename_i c hc
      have hlen := eraseIdx_len hc
      have hmem : c ∈ d.authTasks := List.mem_of_getElem? hc
      simp only
      split
      · exact Pres.refl d
      · rename_i id wire rest lost hs
        refine ⟨?_, ⟨rfl, rfl⟩, ?_, ?_⟩
        · rintro ⟨h1, h2, h3⟩
          refine ⟨?_, h2, ?_⟩
          · simp only [Driver.count, List.length_append, List.length_cons, List.length_nil] at h1 ⊢; omega
          · intro c' rest' hm
            simp only [List.mem_append, List.mem_singleton] at hm
            rcases hm with hm | hm
            · exact h3 c' rest' hm
            · cases hm
              simp only [hf]
              exact ⟨id, wire, lost, hs⟩
        · intro hcalm g hg c' hc'
          exact hcalm g hg c' (hc'.imp (fun h => h) eraseIdx_mem)
        · intro _ he
          simp only [Driver.count, List.length_append, List.length_cons, List.length_nil] at he ⊢; omega
      · rename_i wire hs
        refine ⟨?_, ⟨rfl, rfl⟩, ?_, ?_⟩
        · rintro ⟨h1, h2, h3⟩
          have hp : 0 < d.active := by simp only [Driver.count] at h1; omega
          refine ⟨?_, ?_, h3⟩
          · simp only [Driver.count, decr_pos hp] at h1 ⊢; omega
          · intro m hm; have := h2 m hm; simp only [decr_pos hp]; omega
        · intro hcalm g hg c' hc'
          exact hcalm g hg c' (hc'.imp (fun h => h) eraseIdx_mem)
        · intro _ he
          have hp : 0 < d.active := by simp only [Driver.count] at he; omega
          simp only [Driver.count, decr_pos hp] at he ⊢; omega
      · rename_i hs
        refine ⟨?_, ⟨rfl, rfl⟩, ?_, ?_⟩
        · rintro ⟨h1, h2, h3⟩
          refine ⟨?_, h2, h3⟩
          simp only [Driver.count] at h1 ⊢; omega
        · intro hcalm g hg c' hc'
          exact hcalm g hg c' (hc'.imp (fun h => h) eraseIdx_mem)
        · intro hcalm _
          exact absurd hs (hcalm f hf c (.inr hmem))
  · exact Pres.refl d

theorem stepConn_pres (d : Driver A) (e : DEnv A) : Pres d (d.stepConn e).1 := by
  unfold Driver.stepConn
  split
  · exact Pres.refl d
  · rename_i i ok hr
    split
    · exact Pres.refl d
    · rename_i c hc
      have hlen := eraseIdx_len hc
      have hmem : c ∈ d.connTasks := List.mem_of_getElem? hc
      -- removing the connection and decrementing
      have drop : Pres d { d with connTasks := d.connTasks.eraseIdx i, active := decr d.active } := by
        refine ⟨?_, ⟨rfl, rfl⟩, ?_, ?_⟩
        · rintro ⟨h1, h2, h3⟩
          have hp : 0 < d.active := by simp only [Driver.count] at h1; omega
          refine ⟨?_, ?_, h3⟩
          · simp only [Driver.count, decr_pos hp] at h1 ⊢; omega
          · intro m hm; have := h2 m hm; simp only [decr_pos hp]; omega
        · intro hcalm g hg c' hc'
          exact hcalm g hg c' (hc'.imp eraseIdx_mem (fun h => h))
        · intro _ he
          have hp : 0 < d.active := by simp only [Driver.count] at he; omega
          simp only [Driver.count, decr_pos hp] at he ⊢; omega
      simp only
      split
      · unfold Driver.onIncoming
        cases ha : c.addr with
        | none => exact drop
        | some a =>
          rcases d with ⟨mx, au, ac, ct, at', ss⟩
          cases au with
          | some f =>
            simp only at hlen hmem ⊢
            refine ⟨?_, ⟨rfl, rfl⟩, ?_, ?_⟩
            · rintro ⟨h1, h2, h3⟩
              refine ⟨?_, h2, ?_⟩
              · simp only [Driver.count, List.length_append, List.length_cons, List.length_nil] at h1 ⊢; omega
              · intro c' rest' hm
                have := h3 c' rest' hm
                exact this
            · intro hcalm g hg c' hc'
              simp only [List.mem_append, List.mem_singleton] at hc'
              refine hcalm g hg c' ?_
              rcases hc' with h | h | h
              · exact .inl (eraseIdx_mem h)
              · exact .inr h
              · subst h; exact .inl hmem
            · intro _ he
              simp only [Driver.count, List.length_append, List.length_cons, List.length_nil] at he ⊢; omega
          | none =>
            simp only at hlen hmem ⊢
            refine ⟨?_, ⟨rfl, rfl⟩, ?_, ?_⟩
            · rintro ⟨h1, h2, h3⟩
              refine ⟨?_, h2, ?_⟩
              · simp only [Driver.count, List.length_append, List.length_cons, List.length_nil] at h1 ⊢; omega
              · intro c' rest' hm
                simp only [List.mem_append, List.mem_singleton] at hm
                rcases hm with hm | hm
                · exact h3 c' rest' hm
                · cases hm; rfl
            · intro hcalm g hg
              simp at hg
            · intro _ he
              simp only [Driver.count, List.length_append, List.length_cons, List.length_nil] at he ⊢; omega
      · exact drop

/-- Accepting preserves everything, given that the new connection is harmless (for `calm`). -/
theorem stepAccept_pres (d : Driver A) (e : DEnv A)
    (hnew : ∀ f c, d.authn = some f → e.accept = some c → hsServer f c.hs ≠ .panicked) :
    Pres d (d.stepAccept e).1 := by
  unfold Driver.stepAccept
  cases hc : e.accept with
  | none => exact Pres.refl d
  | some c =>
    have push : (∀ m, d.max = some m → d.active < m) →
        Pres d { d with active := d.active + 1, connTasks := d.connTasks ++ [c] } := by
      intro hm
      refine ⟨?_, ⟨rfl, rfl⟩, ?_, ?_⟩
      · rintro ⟨h1, h2, h3⟩
        refine ⟨?_, ?_, h3⟩
        · simp only [Driver.count, List.length_append, List.length_cons, List.length_nil] at h1 ⊢; omega
        · intro m h; have := hm m h; simp only; omega
      · intro hcalm g hg c' hc'
        simp only [List.mem_append, List.mem_singleton] at hc'
        rcases hc' with (h | h) | h
        · exact hcalm g hg c' (.inl h)
        · subst h; exact hnew g _ hg hc
        · exact hcalm g hg c' (.inr h)
      · intro _ he
        simp only [Driver.count, List.length_append, List.length_cons, List.length_nil] at he ⊢; omega
    simp only
    cases hm : d.max with
    | none => have := push (by simp [hm]); simpa only [hm] using this
    | some m =>
      simp only
      split
      · exact Pres.refl d
      · rename_i h
        have := push (fun m' h' => by rw [hm] at h'; cases h'; omega)
        simpa only [hm] using this

/-- Without looking at panics. -/
theorem stepAccept_inv (d : Driver A) (e : DEnv A) :
    (DInv d → DInv (d.stepAccept e).1) ∧ (d.stepAccept e).1.max = d.max ∧
      (d.stepAccept e).1.authn = d.authn := by
  unfold Driver.stepAccept
  cases hc : e.accept with
  | none => exact ⟨id, rfl, rfl⟩
  | some c =>
    have push : (∀ m, d.max = some m → d.active < m) →
        DInv d → DInv { d with active := d.active + 1, connTasks := d.connTasks ++ [c] } := by
      rintro hm ⟨h1, h2, h3⟩
      refine ⟨?_, ?_, h3⟩
      · simp only [Driver.count, List.length_append, List.length_cons, List.length_nil] at h1 ⊢; omega
      · intro m h; have := hm m h; simp only; omega
    simp only
    cases hm : d.max with
    | none => exact ⟨fun h => by simpa only [hm] using push (by simp [hm]) h, by simp [hm], rfl⟩
    | some m =>
      simp only
      split
      · exact ⟨fun h => h, hm, rfl⟩
      · rename_i h
        refine ⟨fun hi => ?_, by simp [hm], rfl⟩
        have := push (fun m' h' => by rw [hm] at h'; cases h'; omega) hi
        simpa only [hm] using this

theorem iter_inv (d : Driver A) (e : DEnv A) :
    (DInv d → DInv (d.iter e)) ∧ (d.iter e).max = d.max ∧ (d.iter e).authn = d.authn := by
  unfold Driver.iter
  have h1 := stepJoin_pres d e
  rcases hj : d.stepJoin e with ⟨d1, b1⟩
  rw [hj] at h1
  cases b1 with
  | true => exact ⟨h1.inv, h1.cfg⟩
  | false =>
    simp only
    have h2 := stepConn_pres d1 e
    rcases hk : d1.stepConn e with ⟨d2, b2⟩
    rw [hk] at h2
    cases b2 with
    | true => exact ⟨fun h => h2.inv (h1.inv h), h2.cfg.1.trans h1.cfg.1, h2.cfg.2.trans h1.cfg.2⟩
    | false =>
      simp only
      have h3 := stepAccept_inv d2 e
      exact ⟨fun h => h3.1 (h2.inv (h1.inv h)), h3.2.1.trans (h2.cfg.1.trans h1.cfg.1),
        h3.2.2.trans (h2.cfg.2.trans h1.cfg.2)⟩

theorem iter_pres (d : Driver A) (e : DEnv A)
    (hnew : ∀ f c, d.authn = some f → e.accept = some c → hsServer f c.hs ≠ .panicked) :
    Pres d (d.iter e) := by
  unfold Driver.iter
  have h1 := stepJoin_pres d e
  rcases hj : d.stepJoin e with ⟨d1, b1⟩
  rw [hj] at h1
  cases b1 with
  | true => exact h1
  | false =>
    simp only
    have h2 := stepConn_pres d1 e
    rcases hk : d1.stepConn e with ⟨d2, b2⟩
    rw [hk] at h2
    cases b2 with
    | true => exact h1.trans h2
    | false =>
      simp only
      exact (h1.trans h2).trans (stepAccept_pres d2 e (fun f c hf => hnew f c (by
        rw [← h1.cfg.2, ← h2.cfg.2]; exact hf)))

theorem sessionEnd_pres (d : Driver A) (i : Nat) : Pres d (d.act (.sessionEnd i)) := by
  simp only [Driver.act]
  split
  · exact Pres.refl d
  · rename_i x hx
    have hlen := eraseIdx_len hx
    refine ⟨?_, ⟨rfl, rfl⟩, fun h => h, ?_⟩
    · rintro ⟨h1, h2, h3⟩
      have hp : 0 < d.active := by simp only [Driver.count] at h1; omega
      refine ⟨?_, ?_, ?_⟩
      · simp only [Driver.count, decr_pos hp] at h1 ⊢; omega
      · intro m hm; have := h2 m hm; simp only [decr_pos hp]; omega
      · intro c rest hm; exact h3 c rest (eraseIdx_mem hm)
    · intro _ he
      have hp : 0 < d.active := by simp only [Driver.count] at he; omega
      simp only [Driver.count, decr_pos hp] at he ⊢; omega

theorem run_dinv (acts : List (DAct A)) (d : Driver A) :
    (DInv d → DInv (d.run acts)) ∧ (d.run acts).max = d.max ∧ (d.run acts).authn = d.authn := by
  induction acts generalizing d with
  | nil => exact ⟨id, rfl, rfl⟩
  | cons a acts ih =>
    have ha : (DInv d → DInv (d.act a)) ∧ (d.act a).max = d.max ∧ (d.act a).authn = d.authn := by
      cases a with
      | iter e => exact iter_inv d e
      | sessionEnd i => exact ⟨(sessionEnd_pres d i).inv, (sessionEnd_pres d i).cfg⟩
    have := ih (d.act a)
    exact ⟨fun h => this.1 (ha.1 h), this.2.1.trans ha.2.1, this.2.2.trans ha.2.2⟩

theorem run_pres (acts : List (DAct A)) (d : Driver A)
    (hnew : ∀ e, DAct.iter e ∈ acts → ∀ f c, d.authn = some f → e.accept = some c →
      hsServer f c.hs ≠ .panicked) : Pres d (d.run acts) := by
  induction acts generalizing d with
  | nil => exact Pres.refl d
  | cons a acts ih =>
    have ha : Pres d (d.act a) := by
      cases a with
      | iter e => exact iter_pres d e (hnew e (by simp))
      | sessionEnd i => exact sessionEnd_pres d i
    refine ha.trans (ih (d.act a) ?_)
    intro e he f c hf
    rw [ha.cfg.2] at hf
    exact hnew e (by simp [he]) f c hf

/-- The driver as created by `try_bind` (pub/socket.rs:128-139). -/
theorem new_dinv (max : Option Nat) (authn : Option (Bytes → Bool)) :
    DInv ({ max, authn } : Driver A) :=
  ⟨by simp [Driver.count], fun m _ => by simp, fun c rest h => by simp at h⟩

end MsgRs.Pub
