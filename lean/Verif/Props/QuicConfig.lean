import Verif.Model.QuicConfig
import Verif.Props.Options
import Verif.Props.Transport
/-!
# C101: the QUIC configuration
-/
namespace MsgRs.Props
open MsgRs MsgRs.Spec MsgRs.Transport
variable {C : Type}

/-- C101: for every chain of builder calls, let each option be the argument of the last call of its own method, or the documented default (MTU 1460, 50 MiB/s, 100 ms, 5 min,
15 s, the controller's default). `build` panics if the idle timeout is 2^62 ms or more, or if computing the windows panics (C58); otherwise it returns a configuration whose two
sides both have exactly these settings: the MTU for both the initial and the least MTU, no datagrams, no unidirectional streams, the same window in both directions; and
the server validates addresses. -/
theorem C101_builder (checks : Bool) (cc : C) (calls : List (QuicSetter C)) :
    let mtu := setTo (fun | .initialMtu n => some n | _ => none) 1460 calls
    let bandwidth := setTo (fun | .maxStreamBandwidth n => some n | _ => none) 52428800 calls
    let rtt := setTo (fun | .expectedRtt n => some n | _ => none) 100 calls
    let idle := setTo (fun | .maxIdleTimeout d => some d | _ => none) 300000000000 calls
    let keepAlive := setTo (fun | .keepAliveInterval d => some d | _ => none) 15000000000 calls
    let control := setTo (fun | .congestionController c => some c | _ => none) cc calls
    (2 ^ 62 ≤ idle / 1000000 → QuicBuilder.chain checks cc calls = .panic) ∧
    (window checks bandwidth rtt = .panic → QuicBuilder.chain checks cc calls = .panic) ∧
    ∀ w, window checks bandwidth rtt = .ok w → idle / 1000000 < 2 ^ 62 →
      ∃ t : QuicTransport C, QuicBuilder.chain checks cc calls = .ok { client := t, server := t, useRetry := true } ∧
        t.initialMtu = mtu ∧ t.minMtu = mtu ∧ t.idleMs = some (idle / 1000000) ∧ t.keepAlive = some keepAlive ∧ t.cc = control ∧ t.initialRtt = rtt ∧
        t.streamWindow = w ∧ t.sendWindow = w ∧ t.uniStreams = 0 ∧ t.datagramReceive = none ∧ t.datagramSend = 0 ∧ t.allowSpin = false := by
  have h1 : (calls.foldl QuicBuilder.set { cc }).mtu = setTo (fun | .initialMtu n => some n | _ => none) 1460 calls :=
    foldl_setTo (QuicBuilder.set (C := C)) (·.mtu) _ (fun o c => by cases c <;> rfl) calls { cc }
  have h2 : (calls.foldl QuicBuilder.set { cc }).bandwidth = setTo (fun | .maxStreamBandwidth n => some n | _ => none) 52428800 calls :=
    foldl_setTo (QuicBuilder.set (C := C)) (·.bandwidth) _ (fun o c => by cases c <;> rfl) calls { cc }
  have h3 : (calls.foldl QuicBuilder.set { cc }).rtt = setTo (fun | .expectedRtt n => some n | _ => none) 100 calls :=
    foldl_setTo (QuicBuilder.set (C := C)) (·.rtt) _ (fun o c => by cases c <;> rfl) calls { cc }
  have h4 : (calls.foldl QuicBuilder.set { cc }).idle = setTo (fun | .maxIdleTimeout n => some n | _ => none) 300000000000 calls :=
    foldl_setTo (QuicBuilder.set (C := C)) (·.idle) _ (fun o c => by cases c <;> rfl) calls { cc }
  have h5 : (calls.foldl QuicBuilder.set { cc }).keepAlive = setTo (fun | .keepAliveInterval n => some n | _ => none) 15000000000 calls :=
    foldl_setTo (QuicBuilder.set (C := C)) (·.keepAlive) _ (fun o c => by cases c <;> rfl) calls { cc }
  have h6 : (calls.foldl QuicBuilder.set { cc }).cc = setTo (fun | .congestionController n => some n | _ => none) cc calls :=
    foldl_setTo (QuicBuilder.set (C := C)) (·.cc) _ (fun o c => by cases c <;> rfl) calls { cc }
  intro mtu bandwidth rtt idle keepAlive control
  unfold QuicBuilder.chain QuicBuilder.build idleTimeout
  rw [h1, h2, h3, h4, h5, h6]
  refine ⟨fun h => ?_, fun h => ?_, fun w hw hi => ?_⟩
  · rw [if_neg (by omega)]
    cases window checks _ _ with
    | panic => rfl
    | ok w => rfl
  · rw [h]; rfl
  · rw [hw, if_pos hi]
    exact ⟨_, rfl, rfl, rfl, rfl, rfl, rfl, rfl, rfl, rfl, rfl, rfl, rfl, rfl⟩

/-- C101: what the windows are, if eight times the bandwidth-delay product fits in 32 bits (C58). -/
theorem C101_windows (checks : Bool) (cc : C) (calls : List (QuicSetter C)) (cfg : QuicConfig C) (h : QuicBuilder.chain checks cc calls = .ok cfg) :
    let bandwidth := (setTo (fun (c : QuicSetter C) => match c with | .maxStreamBandwidth n => some n | _ => none) 52428800 calls).toNat
    let rtt := (setTo (fun (c : QuicSetter C) => match c with | .expectedRtt n => some n | _ => none) 100 calls).toNat
    8 * (bandwidth / 1000 * rtt) < 2 ^ 32 →
    ∀ t, t = cfg.client ∨ t = cfg.server →
      t.streamWindow.toNat = 8 * (bandwidth / 1000 * rtt) ∧ t.sendWindow.toNat = 8 * (bandwidth / 1000 * rtt) := by
  intro bandwidth rtt hf t ht
  obtain ⟨k1, -, k3⟩ := C101_builder checks cc calls
  obtain ⟨w, hw, hw', -⟩ := C58_window_partial (c := checks) hf
  by_cases hi : setTo (fun | QuicSetter.maxIdleTimeout d => some d | _ => none) 300000000000 calls / 1000000 < 2 ^ 62
  · obtain ⟨t', g1, -, -, -, -, -, -, g8, g9, -⟩ := k3 w hw hi
    rw [h] at g1
    cases g1
    have : t = t' := by rcases ht with ht | ht <;> exact ht
    rw [this, g8, g9]
    exact ⟨hw', hw'⟩
  · have := k1 (by omega)
    rw [h] at this
    cases this

/-- C101: with the keep-alive interval and the idle timeout left alone, keep-alives are sent long before the connection counts as idle, whatever else is configured. -/
theorem C101_stays_alive (checks : Bool) (cc : C) (calls : List (QuicSetter C)) (cfg : QuicConfig C) (h : QuicBuilder.chain checks cc calls = .ok cfg)
    (hn : ∀ d, .maxIdleTimeout d ∉ calls ∧ .keepAliveInterval d ∉ calls) :
    ∀ t, t = cfg.client ∨ t = cfg.server → ∃ k i, t.keepAlive = some k ∧ t.idleMs = some i ∧ k = 15000000000 ∧ i = 300000 ∧ k < i * 1000000 := by
  intro t ht
  obtain ⟨-, k2, k3⟩ := C101_builder checks cc calls
  have e1 : setTo (fun | QuicSetter.maxIdleTimeout d => some d | _ => none) 300000000000 calls = 300000000000 := by
    unfold setTo
    have : calls.filterMap (fun | QuicSetter.maxIdleTimeout d => some d | _ => none) = [] := by
      rw [List.filterMap_eq_nil_iff]
      intro c hc
      cases c <;> first | rfl | exact absurd hc (hn _).1
    rw [this]; rfl
  have e2 : setTo (fun | QuicSetter.keepAliveInterval d => some d | _ => none) 15000000000 calls = 15000000000 := by
    unfold setTo
    have : calls.filterMap (fun | QuicSetter.keepAliveInterval d => some d | _ => none) = [] := by
      rw [List.filterMap_eq_nil_iff]
      intro c hc
      cases c <;> first | rfl | exact absurd hc (hn _).2
    rw [this]; rfl
  cases hw : window checks (setTo (fun | QuicSetter.maxStreamBandwidth n => some n | _ => none) 52428800 calls)
      (setTo (fun | QuicSetter.expectedRtt n => some n | _ => none) 100 calls) with
  | panic => have := k2 hw; rw [h] at this; cases this
  | ok w =>
    obtain ⟨t', g1, -, -, g4, g5, -⟩ := k3 w hw (by rw [e1]; decide)
    rw [h] at g1
    cases g1
    have : t = t' := by rcases ht with ht | ht <;> exact ht
    rw [this, g4, g5, e1, e2]
    exact ⟨_, _, rfl, rfl, rfl, rfl, by decide⟩

/-- C101: the default configuration is what the builder gives for 1000 MiB/s, a keep-alive interval of 10 s and an initial congestion window of 1 MiB. -/
theorem C101_default (checks : Bool) (cc : UInt64) :
    QuicBuilder.chain checks cc [.maxStreamBandwidth (1000 * 1048576), .keepAliveInterval 10000000000, .congestionController 1048576] = .ok QuicConfig.default := by
  have hw : window checks (1000 * 1048576) 100 = .ok 838860800 := by cases checks <;> decide +kernel
  have hd : QuicConfig.default.client.streamWindow = 838860800 := by decide +kernel
  unfold QuicBuilder.chain QuicBuilder.build
  simp only [List.foldl, QuicBuilder.set, hw, R.bind_ok]
  have hi : idleTimeout (300 * 1000000000) = .ok 300000 := by decide +kernel
  rw [hi]
  rw [← hd]
  rfl

/-- A chain that sets one option twice and another to the largest value `build` accepts; and one that makes it panic. -/
example : (∃ t : QuicTransport Nat, QuicBuilder.chain true 7 [.expectedRtt 1, .maxIdleTimeout ((2 ^ 62 - 1) * 1000000), .expectedRtt 20] =
      .ok { client := t, server := t, useRetry := true } ∧ t.initialRtt = 20 ∧ t.idleMs = some (2 ^ 62 - 1) ∧ t.streamWindow = 8388480 ∧ t.cc = 7 ∧
      t.keepAlive = some 15000000000) ∧
    QuicBuilder.chain false 7 [.maxIdleTimeout (2 ^ 62 * 1000000)] = .panic ∧
    QuicBuilder.chain true 7 [.maxStreamBandwidth (600 * 1048576), .expectedRtt 1000] = .panic :=
  ⟨⟨_, rfl, rfl, rfl, rfl, rfl, rfl⟩, rfl, rfl⟩

end MsgRs.Props
