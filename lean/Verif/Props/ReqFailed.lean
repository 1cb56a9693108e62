import Verif.Props.ReqRepCallers
/-!
# C108 — a request that has failed is not carried out afterwards

Whoever gets an error from `request()` may repeat the call; this is safe only if the first request does not reach the server any more.
-/
namespace MsgRs.Spec
open MsgRs Req

/-- All bytes the connections of a request socket have taken from it, connection by connection, oldest first. -/
def wires (s : Req.Socket) : List Bytes :=
  match s.drv with
  | none => []
  | some d => d.chans.map (·.wr.wire)

/-- All requests handed to the connections of a request socket so far, each with the number of its call in the order the calls entered the
command channel. -/
def handed (s : Req.Socket) : List (Nat × ReqRep.Message) :=
  match s.drv with
  | none => []
  | some d => d.chans.flatMap (·.sent)

end MsgRs.Spec

namespace MsgRs.Props
open MsgRs Req

/-- A call that has entered the command channel or was refused stays where it is. -/
theorem stage_act {D : Decompressors} {s t : Req.Socket} {a : Req.SAct} (ha : s.act D a = .ok t) {i : Nat} {c : Caller} (hc : s.callers[i]? = some c)
    (hw : c.stage ≠ .waiting) : ∃ c', t.callers[i]? = some c' ∧ c'.stage = c.stage := by
  have hi : i < s.callers.length := (List.getElem?_eq_some_iff.1 hc).1
  cases a with
  | connect =>
    simp only [Socket.act, R.ok.injEq] at ha
    subst ha
    split
    · exact ⟨c, hc, rfl⟩
    · unfold Socket.tryConnect
      split
      · split <;> exact ⟨c, hc, rfl⟩
      · exact ⟨c, hc, rfl⟩
  | request p =>
    simp only [Socket.act, R.ok.injEq] at ha
    subst ha
    split
    · exact ⟨c, hc, rfl⟩
    · unfold Socket.request
      split <;> exact ⟨c, by simp only [List.getElem?_append_left hi]; exact hc, rfl⟩
  | driver e => rw [(onDriver_same ha).2.2.2]; exact ⟨c, hc, rfl⟩
  | advance dt =>
    simp only [Socket.act] at ha
    cases hu : s.onDriver D (.advance dt) with
    | panic => rw [hu] at ha; cases ha
    | ok u => rw [hu] at ha; cases ha; simp only [(onDriver_same hu).2.2.2]; exact ⟨c, hc, rfl⟩
  | drop =>
    simp only [Socket.act] at ha
    cases hu : s.onDriver D .dropSocket with
    | panic => rw [hu] at ha; cases ha
    | ok u => rw [hu] at ha; cases ha; simp only [(onDriver_same hu).2.2.2]; exact ⟨c, hc, rfl⟩
  | cancel j =>
    simp only [Socket.act, R.ok.injEq] at ha
    subst ha
    unfold Socket.cancel
    split
    · rename_i c' hj
      by_cases hji : j = i
      · subst hji
        rw [hc] at hj
        cases hj
        exact ⟨{ c with cancelled := true }, by rw [List.getElem?_set, if_pos rfl, if_pos hi], rfl⟩
      · exact ⟨c, by rw [List.getElem?_set, if_neg hji]; exact hc, rfl⟩
    · exact ⟨c, hc, rfl⟩
  | poll j =>
    simp only [Socket.act] at ha
    unfold Socket.pollCall at ha
    split at ha
    · rename_i c' d hj hd
      split at ha
      · rename_i hcond
        have hji : j ≠ i := by
          rintro rfl
          rw [hc] at hj
          cases hj
          exact hw hcond.1
        split at ha
        · cases ha
          exact ⟨c, by simp only [List.getElem?_set, if_neg hji]; exact hc, rfl⟩
        · split at ha
          · cases hb : d.act D (.request c'.payload) with
            | panic => rw [hb] at ha; cases ha
            | ok d' =>
              rw [hb] at ha
              cases ha
              exact ⟨c, by simp only [List.getElem?_set, if_neg hji]; exact hc, rfl⟩
          · cases ha; exact ⟨c, hc, rfl⟩
      · cases ha; exact ⟨c, hc, rfl⟩
    · cases ha; exact ⟨c, hc, rfl⟩

/-- A background task that has ended writes nothing. -/
theorem shut_act {D : Decompressors} {d d' : State} {a : Act} (he : d.ended = true) (h : d.act D a = .ok d') :
    d'.ended = true ∧ d'.chans = d.chans := by
  cases a with
  | iter e => rw [State.act, if_pos he] at h; cases h; exact ⟨he, rfl⟩
  | advance dt => cases h; exact ⟨he, rfl⟩
  | request p =>
    rw [State.act] at h
    split at h
    · cases h; exact ⟨he, rfl⟩
    · simp only [he, if_true] at h
      cases h
      exact ⟨rfl, rfl⟩
  | dropSocket => cases h; exact ⟨he, rfl⟩

/-- … nor does the socket. -/
theorem shut_run {D : Decompressors} (acts : List SAct) {s t : Req.Socket} (hi : FrontInv D s) (hr : s.run D acts = .ok t) {d : State} (hd : s.drv = some d)
    (he : d.ended = true) : ∃ d', t.drv = some d' ∧ d'.chans = d.chans := by
  induction acts generalizing s d with
  | nil => cases hr; exact ⟨d, hd, rfl⟩
  | cons a as ih =>
    rw [Socket.run] at hr
    cases ha : s.act D a with
    | panic => rw [ha] at hr; cases hr
    | ok u =>
      rw [ha] at hr
      obtain ⟨d1, h1, h2⟩ := socket_act_driver ha hd (hi.transport (by rw [hd]; simp))
      have h3 : d1.ended = true ∧ d1.chans = d.chans := by
        rcases h2 with rfl | ⟨b, hb⟩
        · exact ⟨he, rfl⟩
        · exact shut_act he hb
      obtain ⟨d', h5, h6⟩ := ih (hi.act a ha) hr h1 h3.1
      exact ⟨d', h5, h6.trans h3.2⟩

theorem stage_run {D : Decompressors} (acts : List SAct) {s t : Req.Socket} (hr : s.run D acts = .ok t) {i : Nat} {c : Caller} (hc : s.callers[i]? = some c)
    (hw : c.stage ≠ .waiting) : ∃ c', t.callers[i]? = some c' ∧ c'.stage = c.stage := by
  induction acts generalizing s c with
  | nil => cases hr; exact ⟨c, hc, rfl⟩
  | cons a as ih =>
    rw [Socket.run] at hr
    cases ha : s.act D a with
    | panic => rw [ha] at hr; cases hr
    | ok u =>
      rw [ha] at hr
      obtain ⟨c1, h1, h2⟩ := stage_act ha hc hw
      obtain ⟨c2, h3, h4⟩ := ih hr h1 (by rw [h2]; exact hw)
      exact ⟨c2, h3, h4.trans h2⟩

/-- C108 (partial): once a call has returned `SocketClosed`, the server does not get its request any more, whatever happens to the socket afterwards: either no
connection takes another byte from the socket, or every request ever handed to a connection is that of another call. (For the first 2^32 calls of a socket: after that
their numbers on the wire wrap around, see C34.)
Missing: a call that has returned `Timeout` (`C108_refuted_timeout`). -/
theorem C108_closed_partial (D : Decompressors) (opts comp) (s t : Socket) (h : SocketReach D opts comp s) (hids : s.callers.length ≤ 2 ^ 32)
    (i : Nat) (hres : s.result i = some .closed) (acts : List SAct) (hr : s.run D acts = .ok t) :
    Spec.wires t = Spec.wires s ∨
    ∀ n x, (Spec.handed t)[n]? = some x → ∃ (j : Nat) (c : Caller), j ≠ i ∧ t.callers[j]? = some c ∧ c.stage = .entered n ∧
      x = (n, requestFrame opts comp n c.payload) := by
  have hi := h.inv
  obtain ⟨c, hc, ⟨h1, -⟩ | ⟨k, d, u, h1, hd, h3⟩⟩ := result_done hres
  · right
    intro n x hx
    obtain ⟨c1, g1, g2⟩ := stage_run acts hr hc (by rw [h1]; simp)
    unfold Spec.handed at hx
    cases hd : t.drv with
    | none => rw [hd] at hx; simp at hx
    | some d =>
      rw [hd] at hx
      have ht : SocketReach D opts comp t := by
        obtain ⟨now, pre, hp⟩ := h
        exact ⟨now, pre ++ acts, by rw [srun_append, hp]; exact hr⟩
      obtain ⟨j, c2, e1, e2, e3, -⟩ := C79_sent_at_most_once D opts comp t ht d hd n x hx
      refine ⟨j, c2, ?_, e1, e2, e3⟩
      rintro rfl
      rw [g1] at e1
      cases e1
      rw [g2, h1] at e2
      cases e2
  · left
    obtain ⟨hreach, -⟩ := hi.reach d hd
    have hlen := front_calls_le hi hd
    have hends : Req.Ends D d := by
      obtain ⟨now, s0, as, h0, hrun⟩ := hreach
      exact (run_steps as s0 d hrun).ends (new_inv h0) (new_ends h0).1
    have he : d.ended = true := by
      rcases hends.closed k u h3 with h | h
      · exact h
      · omega
    obtain ⟨d', e1, e2⟩ := shut_run acts hi hr hd he
    unfold Spec.wires
    rw [e1, hd]
    simp only [e2]

/-- Two calls on a connection that takes nothing; the first request fills the write buffer, the second waits behind it; six seconds pass. -/
def stalled : List SAct :=
  [.connect, .driver {}, .advance 20000000, .driver {},
    .driver { task := some (some ⟨[.pending, .pending, .pending, .pending, .pending, .pending, .pending, .err], [], [], []⟩) },
    .request [1], .request [2], .poll 0, .poll 1, .driver {}, .driver {}, .driver {}, .driver {}, .advance 6000000000, .driver {}]

/-- The connection breaks; a new one is made. -/
def reconnecting : List SAct :=
  [.driver {}, .driver {}, .driver {}, .advance 20000000, .driver {}, .driver { task := some (some ⟨[], [], [], []⟩) },
    .driver { flushAns := [.ok 100, .ok 1] }]

/-- C108 fails for calls that time out: both calls have returned `Timeout` and nothing has been written to the server; afterwards the connection breaks, the socket
connects again, and the request of the second call is sent on the new connection. -/
theorem C108_refuted_timeout (D : Decompressors) : ∃ s t, (Socket.new { boundary := 8 } none 0).run D stalled = .ok s ∧
    s.result 0 = some .timeout ∧ s.result 1 = some .timeout ∧ Spec.wires s = [[]] ∧
    s.run D reconnecting = .ok t ∧ Spec.wires t = [[], ReqRep.encode (requestFrame { boundary := 8 } none 1 [2])] ∧
    s.callers.map (·.payload) = [[1], [2]] :=
  ⟨_, _, rfl, rfl, rfl, rfl, rfl, rfl, rfl⟩

/-- The hypotheses of `C108_closed_partial` can be met in both ways: the server closes the connection while a call waits for its answer, the call fails and so does one made
afterwards; and a call made before the socket is connected. -/
example (D : Decompressors) : ∃ s s', (Socket.new {} none 0).run D
      [.connect, .driver {}, .advance 20000000, .driver {}, .driver { task := some (some ⟨[.pending, .pending, .pending, .data []], [], [], []⟩) },
        .request [1], .poll 0, .driver {}, .driver {}, .driver {}, .request [2], .poll 1] = .ok s ∧
    s.result 0 = some .closed ∧ s.result 1 = some .closed ∧ s.callers.map (·.stage) = [.entered 0, .refused] ∧ (Spec.handed s).map (·.1) = [0] ∧
    (Socket.new {} none 0).run D [.request [1]] = .ok s' ∧ s'.result 0 = some .closed :=
  ⟨_, _, rfl, rfl, rfl, rfl, rfl, rfl, rfl⟩

end MsgRs.Props
