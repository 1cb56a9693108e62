import Verif.Spec.Sim
/-!
# C59, C65 — the network simulator
-/
namespace MsgRs.Props
open MsgRs Sim Spec

section
variable {A : Type} [DecidableEq A]

/-- C59, ids: the ids returned by the starts that succeed are consecutive, hence distinct and increasing, for every
history of starts and stops, every system, and whatever commands fail. -/
theorem C59_ids (os : Os) (cs : List (Call A)) {s s' : Simulator A} {ids : List Nat}
    (h : s.hist os cs = .ok (ids, s')) :
    ids = List.range' s.simId ids.length ∧ s'.simId = s.simId + ids.length ∧ ids.Nodup := by
  suffices hk : ids = List.range' s.simId ids.length ∧ s'.simId = s.simId + ids.length by
    refine ⟨hk.1, hk.2, ?_⟩
    rw [hk.1]; exact List.nodup_range' ..
  induction cs generalizing s ids with
  | nil => cases h; exact ⟨rfl, rfl⟩
  | cons c cs ih =>
    unfold Simulator.hist at h
    rcases hc : s.call os c with ⟨i, s1⟩ | _
    · rw [hc] at h
      simp only [R.bind_ok] at h
      rcases hh : s1.hist os cs with ⟨is, s2⟩ | _
      · rw [hh] at h
        simp only [R.bind_ok] at h
        cases h
        obtain ⟨h1, h2⟩ := ih hh
        have hstep : (i = none ∧ s1.simId = s.simId) ∨ (i = some s.simId ∧ s1.simId = s.simId + 1) := by
          cases c with
          | start a cf ok =>
            simp only [Simulator.call, Simulator.start] at hc
            rcases hs : startSys os ok s.sys s.simId a cf with ⟨b, sys⟩
            rw [hs] at hc
            cases b with
            | false => cases hc; exact .inl ⟨rfl, rfl⟩
            | true =>
              simp only at hc
              rcases hd : dropOld os ok sys a (s.active.lookup a) with sys' | _
              · rw [hd] at hc; cases hc; exact .inr ⟨rfl, rfl⟩
              · rw [hd] at hc; cases hc
          | stop a ok =>
            simp only [Simulator.call, Simulator.stop] at hc
            rcases hd : dropOld os ok s.sys a (s.active.lookup a) with sys' | _
            · rw [hd] at hc; cases hc; exact .inl ⟨rfl, rfl⟩
            · rw [hd] at hc; cases hc
        rcases hstep with ⟨rfl, hs⟩ | ⟨rfl, hs⟩
        · rw [hs] at h1 h2; exact ⟨h1, h2⟩
        · rw [hs] at h1 h2
          refine ⟨?_, ?_⟩
          · simp only [Option.toList_some, List.cons_append, List.nil_append, List.length_cons, List.range'_succ]
            rw [← h1]
          · simp only [Option.toList_some, List.cons_append, List.nil_append, List.length_cons]
            omega
      · rw [hh] at h; cases h
    · rw [hc] at h; cases h

theorem lookup_filter_ne (l : List (A × Simulation)) {a b : A} (h : b ≠ a) :
    (l.filter (fun e => e.1 ≠ a)).lookup b = l.lookup b := by
  induction l with
  | nil => rfl
  | cons e l ih =>
    obtain ⟨k, v⟩ := e
    by_cases hk : k = a
    · have h1 : (b == k) = false := by simp [hk, h]
      rw [List.filter_cons_of_neg (by simp [hk]), ih, List.lookup_cons, h1]
    · rw [List.filter_cons_of_pos (by simp [hk]), List.lookup_cons, List.lookup_cons, ih]

theorem lookup_filter_self (l : List (A × Simulation)) (a : A) :
    (l.filter (fun e => e.1 ≠ a)).lookup a = none := by
  induction l with
  | nil => rfl
  | cons e l ih =>
    obtain ⟨k, v⟩ := e
    by_cases hk : k = a
    · rw [List.filter_cons_of_neg (by simp [hk]), ih]
    · have h1 : (a == k) = false := by simp; exact fun h => hk h.symm
      rw [List.filter_cons_of_pos (by simp [hk]), List.lookup_cons, h1, ih]

/-- C59, bookkeeping: a start that succeeds replaces the simulation on its endpoint and no other; one that fails and a
stop of another endpoint leave an endpoint's simulation in place; after a stop there is none on that endpoint. -/
theorem C59_active (os : Os) (ok : Cmd A → Bool) (s : Simulator A) (a b : A) (c : Config) :
    (∀ i s', s.start os ok a c = .ok (some i, s') →
      activeId s' a = some i ∧ (b ≠ a → activeId s' b = activeId s b)) ∧
    (∀ s', s.start os ok a c = .ok (none, s') → activeId s' b = activeId s b) ∧
    (∀ s', s.stop os ok a = .ok s' → activeId s' a = none ∧ (b ≠ a → activeId s' b = activeId s b)) := by
  refine ⟨?_, ?_, ?_⟩
  · intro i s' h
    unfold Simulator.start at h
    rcases hs : startSys os ok s.sys s.simId a c with ⟨r, sys⟩
    rw [hs] at h
    cases r with
    | false => cases h
    | true =>
      simp only at h
      rcases hd : dropOld os ok sys a (s.active.lookup a) with sys' | _
      · rw [hd] at h; cases h
        refine ⟨by simp [activeId], fun hb => ?_⟩
        have h1 : (b == a) = false := by simp [hb]
        unfold activeId
        rw [List.lookup_cons, h1, lookup_filter_ne _ hb]
      · rw [hd] at h; cases h
  · intro s' h
    unfold Simulator.start at h
    rcases hs : startSys os ok s.sys s.simId a c with ⟨r, sys⟩
    rw [hs] at h
    cases r with
    | false => cases h; rfl
    | true =>
      simp only at h
      rcases hd : dropOld os ok sys a (s.active.lookup a) with sys' | _
      · rw [hd] at h; cases h
      · rw [hd] at h; cases h
  · intro s' h
    unfold Simulator.stop at h
    rcases hd : dropOld os ok s.sys a (s.active.lookup a) with sys' | _
    · rw [hd] at h; cases h
      refine ⟨?_, fun hb => ?_⟩
      · unfold activeId; simp only; rw [lookup_filter_self]; rfl
      · unfold activeId; simp only; rw [lookup_filter_ne _ hb]
    · rw [hd] at h; cases h

/-- C59 on Linux: starting always succeeds, stopping never panics, and neither changes the system: nothing is
simulated. -/
theorem C59_linux (ok : Cmd A → Bool) (s : Simulator A) (a : A) (c : Config) :
    (∃ s', s.start .linux ok a c = .ok (some s.simId, s') ∧ s'.sys = s.sys) ∧
    (∃ s', s.stop .linux ok a = .ok s' ∧ s'.sys = s.sys) := by
  have hd : dropOld .linux ok s.sys a (s.active.lookup a) = .ok s.sys := by
    unfold dropOld dropSys; cases s.active.lookup a <;> rfl
  constructor
  · unfold Simulator.start startSys
    simp only [hd, R.bind_ok]
    exact ⟨_, rfl, rfl⟩
  · unfold Simulator.stop
    simp only [hd, R.bind_ok]
    exact ⟨_, rfl, rfl⟩

theorem runAll_allOk (s : Sys A) (cs : List (Cmd A)) : s.runAll allOk cs = (true, cs.foldl Sys.exec s) := by
  induction cs generalizing s with
  | nil => rfl
  | cons c cs ih => simp only [Sys.runAll, allOk, if_true, List.foldl_cons]; exact ih _

/-- C65, macOS: if the commands succeed, a simulation started on an endpoint without one shapes the traffic to the
endpoint as configured. -/
theorem C65_start_shapes (s : Simulator A) (a : A) (c : Config) (ha : s.active.lookup a = none) :
    ∃ s', s.start .macos allOk a c = .ok (some s.simId, s') ∧ shaping s'.sys a = some c ∧
      (∀ b, b ≠ a → shaping s'.sys b = none) := by
  unfold Simulator.start startSys
  simp only [runAll_allOk, ha, dropOld, R.bind_ok]
  refine ⟨_, rfl, ?_, ?_⟩
  · simp [enableCmds, shaping, Sys.exec]
  · intro b hb
    simp [enableCmds, shaping, Sys.exec, Ne.symm hb]

/-- C59 is false on macOS, starting: once a simulation is started on `b`, traffic to any other endpoint is no longer
shaped, though its simulation is still listed as active. -/
theorem C59_start_macos_refuted (s : Simulator A) (a b : A) (c : Config) (hab : a ≠ b) (hb : s.active.lookup b = none) :
    ∃ s', s.start .macos allOk b c = .ok (some s.simId, s') ∧ activeId s' a = activeId s a ∧ shaping s'.sys a = none := by
  obtain ⟨s', h1, -, h3⟩ := C65_start_shapes s b c hb
  exact ⟨s', h1, ((C59_active .macos allOk s b a c).1 _ _ h1).2 hab, h3 a hab⟩

/-- C59 is false on macOS, stopping: stopping an active simulation turns the packet filter off, so no endpoint's
traffic is shaped any more. -/
theorem C59_stop_macos_refuted (s : Simulator A) (a b : A) (m : Simulation) (ha : s.active.lookup a = some m) :
    ∃ s', s.stop .macos allOk a = .ok s' ∧ shaping s'.sys b = none := by
  unfold Simulator.stop dropOld dropSys
  simp only [ha, runAll_allOk, R.bind_ok]
  exact ⟨_, rfl, by simp [destroyCmds, shaping, Sys.exec]⟩

/-- C65 is false for an endpoint that already has a simulation: starting another one there returns an id, and leaves the
endpoint's traffic unshaped, because the old simulation is torn down after the new one was set up. -/
theorem C65_restart_refuted (s : Simulator A) (a : A) (c : Config) (m : Simulation) (ha : s.active.lookup a = some m) :
    ∃ s', s.start .macos allOk a c = .ok (some s.simId, s') ∧ activeId s' a = some s.simId ∧ shaping s'.sys a = none := by
  have h : ∃ s', s.start .macos allOk a c = .ok (some s.simId, s') ∧ shaping s'.sys a = none := by
    unfold Simulator.start startSys
    simp only [runAll_allOk, ha, dropOld, dropSys, R.bind_ok]
    exact ⟨_, rfl, by simp [destroyCmds, shaping, Sys.exec]⟩
  obtain ⟨s', h1, h2⟩ := h
  exact ⟨s', h1, ((C59_active .macos allOk s a a c).1 _ _ h1).1, h2⟩

/-- C65: a start that fails leaves what it had set up: if only the last command (`pfctl -E`) fails, the caller gets an
error, no simulation is listed, and the pipe and the address of the loopback interface stay. -/
theorem C65_failed_start_leaks_refuted (s : Simulator A) (a : A) (c : Config) (ok : Cmd A → Bool)
    (hok : ∀ x, ok x = true ↔ x ≠ .enable) :
    ∃ s', s.start .macos ok a c = .ok (none, s') ∧ s'.active = s.active ∧ s'.sys.pipes s.simId = some c ∧
      s'.sys.aliases a = true := by
  have h1 : ∀ x, x ≠ .enable → ok x = true := fun x hx => (hok x).2 hx
  have h2 : ok .enable = false := by
    cases h : ok .enable with
    | false => rfl
    | true => exact absurd rfl ((hok _).1 h)
  unfold Simulator.start startSys
  simp only [enableCmds, Sys.runAll, h2, h1 (.pipe s.simId c) (by simp), h1 (.alias a) (by simp),
    h1 (.mtu 1500) (by simp), h1 (.load s.simId) (by simp), h1 (.rule s.simId a s.simId) (by simp), if_true]
  exact ⟨_, rfl, rfl, by simp [Sys.exec], by simp [Sys.exec]⟩

/-- C65: after starting and stopping a simulation on a fresh endpoint with commands that succeed, the system is as
before, up to the (unreferenced) rule in the anchor, the loaded main ruleset and the packet filter being off, provided
the MTU was the default and the endpoint was not yet an address of the loopback interface. -/
theorem C65_stop_restores (s : Simulator A) (a : A) (c : Config) (ha : s.active.lookup a = none)
    (hp : s.sys.pipes s.simId = none) (hl : s.sys.aliases a = false) (hm : s.sys.mtu = 16384) :
    ∃ s1 s2, s.start .macos allOk a c = .ok (some s.simId, s1) ∧ s1.stop .macos allOk a = .ok s2 ∧
      s2.sys.pipes = s.sys.pipes ∧ s2.sys.aliases = s.sys.aliases ∧ s2.sys.mtu = s.sys.mtu ∧
      (∀ b, shaping s2.sys b = none) ∧ s2.sys.enabled = false ∧ s2.sys.main = [] := by
  obtain ⟨s1, h1, -, -⟩ := C65_start_shapes s a c ha
  refine ⟨s1, ?_⟩
  unfold Simulator.start startSys at h1
  simp only [runAll_allOk, ha, dropOld, R.bind_ok] at h1
  have e := h1
  injection e with e
  injection e with _ e
  subst e
  unfold Simulator.stop dropOld dropSys
  simp only [List.lookup_cons, beq_self_eq_true, runAll_allOk, R.bind_ok]
  refine ⟨_, ?_, rfl, ?_, ?_, ?_, ?_, rfl, rfl⟩
  · unfold Simulator.start startSys
    simp only [runAll_allOk, ha, dropOld, R.bind_ok]
  · funext j
    simp only [enableCmds, destroyCmds, List.foldl_cons, List.foldl_nil, Sys.exec]
    by_cases hj : j = s.simId
    · rw [if_pos hj, hj, hp]
    · rw [if_neg hj, if_neg hj]
  · funext b
    simp only [enableCmds, destroyCmds, List.foldl_cons, List.foldl_nil, Sys.exec]
    by_cases hb : b = a
    · rw [if_pos hb, hb, hl]
    · rw [if_neg hb, if_neg hb]
  · simp [enableCmds, destroyCmds, Sys.exec, hm]
  · intro b
    simp [enableCmds, destroyCmds, Sys.exec, shaping]

/-- A case: three starts, one of which fails, and a stop. -/
example : ∃ s, (({} : Simulator Nat)).hist .macos
    [.start 7 {} allOk, .start 8 {} (fun _ => false), .stop 7 allOk, .start 8 {} allOk] = .ok ([1, 2], s) :=
  ⟨_, rfl⟩

end
end MsgRs.Props
