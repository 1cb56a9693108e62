import Verif.Spec.Transport
/-!
# C56, C58 — transports: waiting for a connection, window sizes
-/
namespace MsgRs.Props
open MsgRs Transport Spec

section
variable {α A : Type}

theorem arrivals_append (as bs : List (Act α)) : arrivals (as ++ bs) = arrivals as ++ arrivals bs := by
  induction as with
  | nil => rfl
  | cons a as ih => cases a <;> simp [arrivals, ih]

/-- What holds of a waiting task after any history. -/
structure WInv (w : Waiter α) (as : List (Fut α Err)) : Prop where
  bound : w.bound = true
  split : ∃ dropped taken, as = dropped ++ taken ++ w.queue ∧ dropped.length = w.lost.length ∧
    (∀ f ∈ dropped, immediate f = false) ∧
    (∀ r, w.out = some r → ∃ f, taken = [f] ∧ immediate f = true ∧ f.res = r) ∧
    (w.out = none → taken = [])
  live : w.out = none → w.woken = true ∨ (w.queue = [] ∧ w.armed = true) ∨ w.lost ≠ []

theorem winv_act {w : Waiter α} {as : List (Fut α Err)} (h : WInv w as) (a : Act α) :
    WInv (w.act a) (as ++ arrivals [a]) := by
  obtain ⟨hb, ⟨dr, tk, h1, h2, h3, h4, h5⟩, hl⟩ := h
  cases a with
  | arrive f =>
    refine ⟨hb, ⟨dr, tk, ?_, h2, h3, h4, h5⟩, ?_⟩
    · rw [h1]; simp [arrivals, Waiter.act]
    · intro ho
      rcases hl ho with h | ⟨-, h⟩ | h
      · left; simp [Waiter.act, h]
      · left; simp [Waiter.act, h]
      · exact .inr (.inr h)
  | run =>
    simp only [arrivals, List.append_nil]
    unfold Waiter.act
    simp only
    by_cases hc : (w.woken && w.out.isNone) = true
    · rw [if_pos hc]
      have ho : w.out = none := by
        cases h : w.out with
        | none => rfl
        | some r => rw [h] at hc; simp at hc
      have htk := h5 ho
      subst htk
      unfold Waiter.poll Waiter.pollAccept
      rw [if_pos hb]
      cases hq : w.queue with
      | nil =>
        refine ⟨hb, ⟨dr, [], ?_, h2, h3, ?_, fun _ => rfl⟩, fun _ => .inr (.inl ⟨rfl, rfl⟩)⟩
        · rw [h1, hq]
        · intro r hr; exact absurd (ho.symm.trans hr) (by simp)
      | cons f q =>
        rw [hq] at h1
        cases hf : f.waits with
        | zero =>
          have hp : f.poll = (some f.res, f) := by unfold Fut.poll; rw [hf]
          simp only [hp]
          refine ⟨hb, ⟨dr, [f], ?_, h2, h3, ?_, ?_⟩, ?_⟩
          · rw [h1]; simp
          · intro r hr
            exact ⟨f, rfl, by simp [immediate, hf], Option.some.inj hr⟩
          · intro h; cases h
          · intro h; cases h
        | succ n =>
          have hp : f.poll = (none, { f with waits := n }) := by unfold Fut.poll; rw [hf]
          simp only [hp]
          refine ⟨hb, ⟨dr ++ [f], [], ?_, ?_, ?_, ?_, fun _ => rfl⟩, fun _ => .inr (.inr (by simp))⟩
          · rw [h1]; simp
          · simp [h2]
          · intro g hg
            rcases List.mem_append.1 hg with hg | hg
            · exact h3 g hg
            · rw [List.mem_singleton.1 hg]; simp [immediate, hf]
          · intro r hr; exact absurd (ho.symm.trans hr) (by simp)
    · rw [if_neg hc]
      exact ⟨hb, ⟨dr, tk, h1, h2, h3, h4, h5⟩, hl⟩

theorem winv_hist (as : List (Act α)) : WInv ((waiting α).hist as) (arrivals as) := by
  suffices h : ∀ (w : Waiter α) bs, WInv w bs → WInv (w.hist as) (bs ++ arrivals as) by
    have := h (waiting α) [] ⟨rfl, ⟨[], [], rfl, rfl, by simp, by simp [waiting], fun _ => rfl⟩, fun _ => .inl rfl⟩
    simpa using this
  induction as with
  | nil => intro w bs h; rw [arrivals, List.append_nil]; exact h
  | cons a as ih =>
    intro w bs h
    have := ih _ _ (winv_act h a)
    have e : arrivals (a :: as) = arrivals [a] ++ arrivals as := arrivals_append [a] as
    rw [e, ← List.append_assoc]
    exact this

/-- C56, what `accept().await` yields on any transport: the result of the first report whose accept future is ready at
its first poll; the reports after it stay with the listener; the ones before it were dropped. -/
theorem C56_first_ready {as : List (Act α)} {r : Res α Err} (h : ((waiting α).hist as).out = some r) :
    ∃ dropped f, arrivals as = dropped ++ f :: ((waiting α).hist as).queue ∧ f.res = r ∧ immediate f = true ∧
      (∀ g ∈ dropped, immediate g = false) ∧ ((waiting α).hist as).lost.length = dropped.length := by
  obtain ⟨-, ⟨dr, tk, h1, h2, h3, h4, -⟩, -⟩ := winv_hist as
  obtain ⟨f, rfl, hf, hr⟩ := h4 r h
  exact ⟨dr, f, by rw [h1]; simp, hr, hf, h3, h2.symm⟩

/-- C56 for transports whose accept futures are always ready at once (TCP and IPC: `C56_tcp_immediate`,
`C56_ipc_immediate`): `accept().await` yields exactly the first result the listener reports, nothing is lost, and
there is no lost wakeup: once something was reported the task is scheduled, and as soon as it runs it has the result.
Missing from the full claim: QUIC, for which it is false (`C56_quic_loses_refuted`). -/
theorem C56_accept_partial {as : List (Act α)} (hi : ∀ f ∈ arrivals as, immediate f = true) :
    ((waiting α).hist as).lost = [] ∧
    (∀ r, ((waiting α).hist as).out = some r → ∃ f, arrivals as = f :: ((waiting α).hist as).queue ∧ f.res = r) ∧
    (((waiting α).hist as).out = none → ((waiting α).hist as).queue = arrivals as) ∧
    (∀ f rest, arrivals as = f :: rest →
      (((waiting α).hist as).out = none → ((waiting α).hist as).woken = true) ∧
      ((waiting α).hist (as ++ [.run])).out = some f.res) := by
  obtain ⟨hb, ⟨dr, tk, h1, h2, h3, h4, h5⟩, hl⟩ := winv_hist as
  have hdr : dr = [] := by
    cases dr with
    | nil => rfl
    | cons g gs =>
      have := h3 g List.mem_cons_self
      rw [hi g (by rw [h1]; simp)] at this
      cases this
  subst hdr
  have hlost : ((waiting α).hist as).lost = [] := List.length_eq_zero_iff.1 h2.symm
  have hnone : ((waiting α).hist as).out = none → ((waiting α).hist as).queue = arrivals as := by
    intro ho; rw [h1, h5 ho]; simp
  refine ⟨hlost, ?_, hnone, ?_⟩
  · intro r hr
    obtain ⟨f, rfl, -, hfr⟩ := h4 r hr
    exact ⟨f, by rw [h1]; simp, hfr⟩
  · intro f rest ha
    have hw : ((waiting α).hist as).out = none → ((waiting α).hist as).woken = true := by
      intro ho
      rcases hl ho with h | ⟨h, -⟩ | h
      · exact h
      · rw [hnone ho, ha] at h; cases h
      · exact absurd hlost h
    refine ⟨hw, ?_⟩
    have he : (waiting α).hist (as ++ [.run]) = ((waiting α).hist as).act .run := by
      unfold Waiter.hist; rw [List.foldl_append]; rfl
    rw [he]
    cases ho : ((waiting α).hist as).out with
    | some r =>
      obtain ⟨g, rfl, -, hgr⟩ := h4 r ho
      unfold Waiter.act
      simp only
      rw [if_neg (by simp [ho]), ho]
      rw [ha] at h1
      simp at h1
      rw [h1.1, hgr]
    | none =>
      unfold Waiter.act
      simp only
      rw [if_pos (by simp [ho, hw ho])]
      unfold Waiter.poll Waiter.pollAccept
      rw [if_pos hb, hnone ho, ha]
      have hf : f.waits = 0 := by
        have := hi f (by rw [ha]; simp)
        simpa [immediate] using this
      have hp : f.poll = (some f.res, f) := by unfold Fut.poll; rw [hf]
      simp only [hp]

/-- TCP's accept futures are ready at once, and yield the connection with its peer's address unless the listener or
`set_nodelay` reports an error. -/
theorem C56_tcp_immediate (x : TcpIn A) : immediate x.fut = true ∧
    (∀ s, x.fut.res = .ok s ↔ x = .conn s.uid s.peer true) := by
  cases x with
  | conn u p nd =>
    refine ⟨rfl, fun s => ⟨fun h => ?_, fun h => ?_⟩⟩
    · cases nd <;> simp [TcpIn.fut] at h; subst h; rfl
    · cases h; rfl
  | err => exact ⟨rfl, fun s => ⟨fun h => (by cases h), fun h => (by cases h)⟩⟩

/-- IPC's accept futures are ready at once; every connection reports the path of the listener as its peer's address. -/
theorem C56_ipc_immediate (path : A) (x : IpcIn) : immediate (x.fut path) = true ∧
    (∀ s, (x.fut path).res = .ok s ↔ x = .conn s.uid ∧ s.peer = path) := by
  cases x with
  | conn u =>
    refine ⟨rfl, fun s => ⟨fun h => ?_, fun h => ?_⟩⟩
    · simp [IpcIn.fut] at h; subst h; exact ⟨rfl, rfl⟩
    · obtain ⟨h, rfl⟩ := h; cases h; rfl
  | err => exact ⟨rfl, fun s => ⟨fun h => (by cases h), fun h => (by cases h.1)⟩⟩

/-- C56 is false for QUIC: a connection whose handshake is not finished at the first poll is dropped, and the task is
never scheduled again, even if later connections complete at once (here `uid = 1` needs `n + 1` polls, `others` come
later). -/
theorem C56_quic_loses_refuted (peer : A) (n : Nat) (ok : Bool) (others : List (Act (Stream A))) :
    let w := (waiting (Stream A)).hist (.arrive (QuicIn.conn 1 peer (n + 1) ok).fut :: .run :: others)
    w.out = none ∧ w.woken = false ∧ w.lost.length = 1 ∧ w.queue = arrivals others := by
  intro w
  let v0 : Waiter (Stream A) :=
    { bound := true, woken := false, arrived := [(QuicIn.conn 1 peer (n + 1) ok).fut]
      lost := [{ (QuicIn.conn 1 peer (n + 1) ok).fut with waits := n }] }
  have h0 : w = v0.hist others := rfl
  have key : ∀ (os : List (Act (Stream A))) (v : Waiter (Stream A)), v.out = none → v.woken = false →
      v.armed = false →
      (v.hist os).out = none ∧ (v.hist os).woken = false ∧ (v.hist os).lost = v.lost ∧
        (v.hist os).queue = v.queue ++ arrivals os := by
    intro os
    induction os with
    | nil => intro v h1 h2 h3; exact ⟨h1, h2, rfl, by simp [Waiter.hist, arrivals]⟩
    | cons a os ih =>
      intro v h1 h2 h3
      cases a with
      | arrive f =>
        obtain ⟨a, b, c, d⟩ := ih (v.act (.arrive f)) h1 (by simp [Waiter.act, h2, h3]) rfl
        refine ⟨a, b, c, ?_⟩
        have e : v.hist (.arrive f :: os) = (v.act (.arrive f)).hist os := rfl
        rw [e, d]
        simp [Waiter.act, arrivals]
      | run =>
        have e : v.act .run = v := by unfold Waiter.act; simp [h2]
        have e' : v.hist (.run :: os) = v.hist os := by
          show (v.act .run).hist os = _
          rw [e]
        rw [e']
        exact ih v h1 h2 h3
  rw [h0]
  obtain ⟨a, b, c, d⟩ := key others v0 rfl rfl rfl
  exact ⟨a, b, by rw [c]; rfl, by rw [d]; rfl⟩

/-- C56: waiting on a transport that was not bound fails at once. -/
theorem C56_unbound (e : Err) : ((({ bound := false, unbound := e } : Waiter α)).hist [.run]).out = some (.error e) :=
  rfl

/-- A case: an error is reported, then a connection; the first `accept().await` yields the error, the connection stays
with the listener. -/
example : let w := (waiting (Stream Nat)).hist [.run, .arrive (TcpIn.err).fut, .arrive (TcpIn.conn 5 80 true).fut, .run]
    w.out = some (.error .listener) ∧ w.queue.length = 1 ∧ w.lost.length = 0 := by
  refine ⟨rfl, rfl, rfl⟩

/-! ## Binding -/

/-! ## QUIC window sizes -/

theorem mulU32_fits {c : Bool} {a b : UInt32} (h : a.toNat * b.toNat < 2 ^ 32) :
    mulU32 c a b = .ok (a * b) ∧ (a * b).toNat = a.toNat * b.toNat := by
  refine ⟨if_pos h, ?_⟩
  rw [UInt32.toNat_mul]
  exact Nat.mod_eq_of_lt h

/-- C58: if eight times the bandwidth-delay product fits in 32 bits, the windows are computed without overflow, are
eight times `bandwidth / 1000 * rtt`, and differ from eight times the exact product (bytes per second × ms / 1000)
by less than `8 * rtt`. Missing: larger products, for which the claim is false (`C58_window_refuted`). -/
theorem C58_window_partial {c : Bool} {bw rtt : UInt32} (h : 8 * (bw.toNat / 1000 * rtt.toNat) < 2 ^ 32) :
    ∃ w, window c bw rtt = .ok w ∧ w.toNat = 8 * (bw.toNat / 1000 * rtt.toNat) ∧
      1000 * w.toNat ≤ 8 * (bw.toNat * rtt.toNat) ∧ 8 * (bw.toNat * rtt.toNat) ≤ 1000 * (w.toNat + 8 * rtt.toNat) := by
  have hd : (bw / 1000).toNat = bw.toNat / 1000 := by rw [UInt32.toNat_div]; rfl
  obtain ⟨h1, h2⟩ := mulU32_fits (c := c) (a := bw / 1000) (b := rtt) (by rw [hd]; omega)
  rw [hd] at h2
  obtain ⟨h3, h4⟩ := mulU32_fits (c := c) (a := 8) (b := bw / 1000 * rtt) (by
    rw [h2]; exact h)
  have h8 : (8 : UInt32).toNat = 8 := rfl
  rw [h2, h8] at h4
  refine ⟨8 * (bw / 1000 * rtt), ?_, h4, ?_, ?_⟩
  · show R.bind (mulU32 c (bw / 1000) rtt) _ = _
    rw [h1]; exact h3
  · rw [h4]
    have : 1000 * (bw.toNat / 1000) * rtt.toNat ≤ bw.toNat * rtt.toNat := Nat.mul_le_mul_right _ (by omega)
    have e : 1000 * (bw.toNat / 1000) * rtt.toNat = 1000 * (bw.toNat / 1000 * rtt.toNat) := Nat.mul_assoc ..
    omega
  · rw [h4]
    have h5 : bw.toNat * rtt.toNat ≤ (1000 * (bw.toNat / 1000) + 1000) * rtt.toNat := Nat.mul_le_mul_right _ (by omega)
    rw [Nat.add_mul] at h5
    have e : 1000 * (bw.toNat / 1000) * rtt.toNat = 1000 * (bw.toNat / 1000 * rtt.toNat) := Nat.mul_assoc ..
    omega

/-- C58 is false in general: for 600 MiB/s and 1 s (a BDP of about 629 MB) the window wraps to about 738 MB instead of
5 GB; for a little over 536 MB/s and 1 s it is under a kilobyte; with overflow checks the builder panics. -/
theorem C58_window_refuted :
    window false (600 * 1048576) 1000 = .ok 738192704 ∧
    window false 536871000 1000 = .ok 704 ∧
    window true (600 * 1048576) 1000 = .panic := by decide +kernel

/-- The default configuration (1000 MiB/s, 100 ms) meets the hypothesis of `C58_window_partial`. -/
example : window false (1048576 * 1000) 100 = .ok 838860800 ∧
    8 * ((1048576 * 1000 : UInt32).toNat / 1000 * (100 : UInt32).toNat) < 2 ^ 32 := by decide +kernel

end
end MsgRs.Props
