import Verif.Proofs.PubDriver
/-!
# Where the sessions of the publisher come from
-/
namespace MsgRs.Pub
open MsgRs
variable {A : Type}

/-- Every connection in the driver's hands was reported by the listener (`P`) and has a peer address once it
is authenticated or served. -/
structure OInv (P : Conn A → Prop) (d : Driver A) : Prop where
  ct : ∀ c ∈ d.connTasks, P c
  at' : ∀ c ∈ d.authTasks, P c
  ss : ∀ c rest, (c, rest) ∈ d.sessions → P c

theorem stepJoin_oinv {P : Conn A → Prop} {d : Driver A} (h : OInv P d) (e : DEnv A) : OInv P (d.stepJoin e).1 := by
  unfold Driver.stepJoin
  split
  · rename_i i f hj hf
    split
    · exact h
    · rename_i c hc
      have hmem := h.at' c (List.mem_of_getElem? hc)
      have her : OInv P { d with authTasks := d.authTasks.eraseIdx i } :=
        ⟨h.ct, fun c hc => h.at' c (eraseIdx_mem hc), h.ss⟩
      simp only
      split
      · exact h
      · refine ⟨her.ct, her.at', ?_⟩
        intro c' rest' hm
        simp only [List.mem_append, List.mem_singleton] at hm
        rcases hm with hm | hm
        · exact h.ss c' rest' hm
        · cases hm; exact hmem
      · exact ⟨her.ct, her.at', her.ss⟩
      · exact her
  · exact h

theorem stepConn_oinv {P : Conn A → Prop} {d : Driver A} (h : OInv P d) (e : DEnv A) : OInv P (d.stepConn e).1 := by
  unfold Driver.stepConn
  split
  · exact h
  · rename_i i ok hr
    split
    · exact h
    · rename_i c hc
      have hmem := h.ct c (List.mem_of_getElem? hc)
      have her : OInv P { d with connTasks := d.connTasks.eraseIdx i } :=
        ⟨fun c hc => h.ct c (eraseIdx_mem hc), h.at', h.ss⟩
      simp only
      split
      · unfold Driver.onIncoming
        cases ha : c.addr with
        | none => exact ⟨her.ct, her.at', her.ss⟩
        | some a =>
          rcases d with ⟨mx, au, ac, ct, at', ss⟩
          cases au with
          | some f =>
            refine ⟨her.ct, ?_, her.ss⟩
            intro c' hc'
            simp only [List.mem_append, List.mem_singleton] at hc'
            rcases hc' with hc' | rfl
            · exact h.at' c' hc'
            · exact hmem
          | none =>
            refine ⟨her.ct, her.at', ?_⟩
            intro c' rest' hm
            simp only [List.mem_append, List.mem_singleton] at hm
            rcases hm with hm | hm
            · exact h.ss c' rest' hm
            · cases hm; exact hmem
      · exact ⟨her.ct, her.at', her.ss⟩

theorem stepAccept_oinv {P : Conn A → Prop} {d : Driver A} (h : OInv P d) (e : DEnv A)
    (hP : ∀ c, e.accept = some c → P c) : OInv P (d.stepAccept e).1 := by
  unfold Driver.stepAccept
  split
  · exact h
  · rename_i c hc
    have push : OInv P { d with active := d.active + 1, connTasks := d.connTasks ++ [c] } := by
      refine ⟨?_, h.at', h.ss⟩
      intro c' hc'
      simp only [List.mem_append, List.mem_singleton] at hc'
      rcases hc' with hc' | rfl
      · exact h.ct c' hc'
      · exact hP _ hc
    split
    · split
      · exact h
      · exact push
    · exact push

theorem act_oinv {P : Conn A → Prop} {d : Driver A} (h : OInv P d) (a : DAct A)
    (hP : ∀ e c, a = .iter e → e.accept = some c → P c) : OInv P (d.act a) := by
  cases a with
  | iter e =>
    simp only [Driver.act, Driver.iter]
    have h1 := stepJoin_oinv h e
    rcases hj : d.stepJoin e with ⟨d1, b1⟩
    rw [hj] at h1
    cases b1 with
    | true => exact h1
    | false =>
      simp only
      have h2 := stepConn_oinv h1 e
      rcases hj2 : d1.stepConn e with ⟨d2, b2⟩
      rw [hj2] at h2
      cases b2 with
      | true => exact h2
      | false => exact stepAccept_oinv h2 e (fun c hc => hP e c rfl hc)
  | sessionEnd i =>
    simp only [Driver.act]
    split
    · exact h
    · exact ⟨h.ct, h.at', fun c rest hm => h.ss c rest (eraseIdx_mem hm)⟩

theorem run_oinv {P : Conn A → Prop} (acts : List (DAct A)) {d : Driver A} (h : OInv P d)
    (hP : ∀ e c, .iter e ∈ acts → e.accept = some c → P c) : OInv P (d.run acts) := by
  induction acts generalizing d with
  | nil => exact h
  | cons a acts ih =>
    exact ih (act_oinv h a (fun e c he hc => hP e c (by rw [he]; exact List.mem_cons_self) hc))
      (fun e c he hc => hP e c (List.mem_cons_of_mem _ he) hc)

/-- Every session comes from a connection the listener reported, and reads what that connection has left. -/
theorem run_origin (max : Option Nat) (authn : Option (Bytes → Bool)) (acts : List (DAct A)) (c : Conn A)
    (rest : List ReadAns) (h : (c, rest) ∈ (({ max, authn } : Driver A).run acts).sessions) :
    (∃ e, .iter e ∈ acts ∧ e.accept = some c) ∧
    match authn with
    | some f => ∃ id wire lost, hsServer f c.hs = .accepted id wire rest lost
    | none => rest = c.hs.reads := by
  constructor
  · refine (run_oinv (P := fun c => ∃ e, .iter e ∈ acts ∧ e.accept = some c) acts (d := { max, authn })
      ⟨by simp, by simp, by simp⟩ (fun e c he hc => ⟨e, he, hc⟩)).ss c rest h
  · obtain ⟨h1, -, h3⟩ := run_dinv acts ({ max, authn } : Driver A)
    have hs := (h1 (new_dinv max authn)).served c rest h
    rw [h3] at hs
    cases authn <;> exact hs

end MsgRs.Pub
