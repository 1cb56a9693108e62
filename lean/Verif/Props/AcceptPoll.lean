import Verif.Proofs.AcceptPoll
import Verif.Proofs.RepRun
/-!
# C86: a server's driver goes to sleep only when nothing is ready
-/
namespace MsgRs.Props
open MsgRs

/-- Each poll of a publisher's driver is a piece of a history of `Model/PubDriver`. -/
theorem C86_publisher_poll_is_history (d : Pub.Driver A) (r : Avail A) (n : Nat) (d' : Pub.Driver A) (r' : Avail A) (h : d.poll r n = some (d', r')) :
    ∃ acts : List (Pub.DAct A), d' = d.run acts := by
  induction n generalizing d r with
  | zero => cases h
  | succ n ih =>
    have hi : (d.pollIter r).1 = d.iter (d.offer r) := by
      simp only [Pub.Driver.pollIter, Pub.Driver.iter]
      rcases d.stepJoin (d.offer r) with ⟨d1, b1⟩
      cases b1
      · dsimp only
        rcases d1.stepConn (d.offer r) with ⟨d2, b2⟩
        cases b2
        · dsimp only
          rcases d2.stepAccept (d.offer r) with ⟨d3, b3⟩
          cases b3 <;> rfl
        · rfl
      · rfl
    rw [Pub.Driver.poll] at h
    rcases hp : d.pollIter r with ⟨d1, r1, b⟩
    rw [hp] at h hi
    simp only at hi
    cases b with
    | true =>
      obtain ⟨acts, e⟩ := ih d1 r1 h
      refine ⟨.iter (d.offer r) :: acts, ?_⟩
      rw [e, hi]
      rfl
    | false =>
      cases h
      exact ⟨[.iter (d.offer r)], hi⟩

theorem peers_run [DecidableEq A] (D : Decompressors) (xs : List (Nat × Rep.PEnv)) (d d' : Rep.Driver A) (h : d.peers' D xs = .ok d') :
    d.run D (xs.map fun x => .peer x.1 x.2) = .ok d' := by
  induction xs generalizing d with
  | nil => exact h
  | cons x xs ih =>
    obtain ⟨k, e⟩ := x
    simp only [Rep.Driver.peers'] at h
    simp only [List.map_cons, Rep.Driver.run, Rep.Driver.act]
    cases hs : d.stepPeer D k e with
    | panic => rw [hs] at h; cases h
    | ok d1 => rw [hs] at h; exact ih d1 h

theorem iter_run [DecidableEq A] (D : Decompressors) (d : Rep.Driver A) (r : Avail A) :
    ∃ acts : List (Rep.Act A), d.run D acts = .ok (d.pollIter r).1 := by
  have hj : ∃ acts : List (Rep.Act A), d.run D acts = .ok (d.pollJoin r).1 := by
    unfold Rep.Driver.pollJoin
    split
    · exact ⟨[], rfl⟩
    · rename_i i _
      split
      · split
        · exact ⟨[], rfl⟩
        · exact ⟨[.join i], rfl⟩
        · exact ⟨[.join i], rfl⟩
      · exact ⟨[], rfl⟩
  obtain ⟨a1, h1⟩ := hj
  simp only [Rep.Driver.pollIter]
  rcases hp : d.pollJoin r with ⟨d1, b⟩
  rw [hp] at h1
  cases b with
  | true => exact ⟨a1, h1⟩
  | false =>
    dsimp only
    split
    · rename_i i ok _
      exact ⟨a1 ++ [.ready i ok], by rw [Rep.run_append, h1]; rfl⟩
    · split
      · rename_i c _ _
        exact ⟨a1 ++ [.accept c], by rw [Rep.run_append, h1]; rfl⟩
      · exact ⟨a1, h1⟩

/-- Each poll of a reply socket's driver is a piece of a history of `Model/RepDriver`. -/
theorem C86_reply_poll_is_history [DecidableEq A] (D : Decompressors) (d : Rep.Driver A) (r : Avail A) (ps : List (List (Nat × Rep.PEnv)))
    (d' : Rep.Driver A) (r' : Avail A) (h : d.poll D r ps = .ok (some (d', r'))) :
    ∃ acts : List (Rep.Act A), d.run D acts = .ok d' := by
  induction ps generalizing d r with
  | nil => cases h
  | cons xs ps ih =>
    rw [Rep.Driver.poll] at h
    cases hx : d.peers' D xs with
    | panic => rw [hx] at h; cases h
    | ok d1 =>
      rw [hx, R.bind_ok] at h
      obtain ⟨a2, h2⟩ := iter_run D d1 r
      rcases hp : d1.pollIter r with ⟨d2, r2, b⟩
      rw [hp] at h h2
      have h12 : d.run D (xs.map (fun x => .peer x.1 x.2) ++ a2) = .ok d2 := by
        rw [Rep.run_append, peers_run D xs d d1 hx]
        exact h2
      cases b with
      | true =>
        obtain ⟨a3, h3⟩ := ih d2 r2 h
        exact ⟨xs.map (fun x => .peer x.1 x.2) ++ a2 ++ a3, by rw [Rep.run_append, h12]; exact h3⟩
      | false =>
        cases h
        exact ⟨_, h12⟩

/-- C86 (partial), publisher: after any history, when the driver is polled with any number of things ready and no finished authentication task
panicked, the poll returns after handling all of them: every subscriber whose handshake succeeded gets a session with what it sent
after the handshake, every established connection is being authenticated or (without authenticator) has a session, and
nobody ready is left behind. Missing: polls that find a panicked task (`C86_publisher_left_waiting_refuted`). -/
theorem C86_publisher_partial (max : Option Nat) (authn : Option (Bytes → Bool)) (acts : List (Pub.DAct A)) (r : Avail A) :
    let d := ({ max, authn } : Pub.Driver A).run acts
    Fits d.authn d.connTasks d.authTasks r → Calm d.authn d.authTasks r →
    ∃ d', d.poll r (r.size + 1) = some (d', ⟨[], [], []⟩) ∧
      (∀ c ∈ d.authTasks, c.uid ∈ r.joins → c ∉ d'.authTasks ∧
        ∀ f id w rest l, d.authn = some f → hsServer f c.hs = .accepted id w rest l → (c, rest) ∈ d'.sessions) ∧
      (∀ c ∈ d.connTasks, ∀ ok, (c.uid, ok) ∈ r.conns → c ∉ d'.connTasks ∧
        (ok = true → c.addr ≠ none → (d.authn ≠ none → c ∈ d'.authTasks) ∧ (d.authn = none → (c, c.hs.reads) ∈ d'.sessions))) ∧
      (∀ x ∈ d.sessions, x ∈ d'.sessions) ∧
      (∀ c ∈ d.authTasks, c.uid ∉ r.joins → c ∈ d'.authTasks) ∧
      (∀ c ∈ d.connTasks, c.uid ∉ r.conns.map (·.1) → c ∈ d'.connTasks) := by
  intro d hf hc
  obtain ⟨d', h, hd⟩ := Pub.poll_done r.size d r rfl hf hc
  exact ⟨d', h, hd.joined, hd.conned, hd.sessions, hd.auth, hd.conns⟩

/-- C86 (partial), reply socket: the same, whatever the connected requesters do in between (`ps`); a requester is served when it becomes one of the
connections of the socket, with its address and what it sent after the handshake. Missing: polls that find a panicked task
(`C86_reply_left_waiting_refuted`). -/
theorem C86_reply_partial [DecidableEq A] (D : Decompressors) (max authn comp) (acts : List (Rep.Act A)) (d : Rep.Driver A)
    (h : (Rep.Driver.new max authn comp : Rep.Driver A).run D acts = .ok d) (r : Avail A)
    (hf : Fits d.authn d.connTasks d.authTasks r) (hc : Calm d.authn d.authTasks r)
    (ps : List (List (Nat × Rep.PEnv))) (hps : ps.length = r.size + 1) :
    ∃ d', d.poll D r ps = .ok (some (d', ⟨[], [], []⟩)) ∧
      (∀ c ∈ d.authTasks, c.uid ∈ r.joins → c ∉ d'.authTasks ∧
        ∀ f id w rest l, d.authn = some f → hsServer f c.hs = .accepted id w rest l →
          ∃ a, c.addr = some a ∧ ∃ p ∈ d'.conns, p.uid = c.uid ∧ p.addr = a ∧ p.input0 = rest) ∧
      (∀ c ∈ d.connTasks, ∀ ok, (c.uid, ok) ∈ r.conns → c ∉ d'.connTasks ∧
        ∀ a, ok = true → c.addr = some a → (d.authn ≠ none → c ∈ d'.authTasks) ∧
          (d.authn = none → ∃ p ∈ d'.conns, p.uid = c.uid ∧ p.addr = a ∧ p.input0 = c.hs.reads)) ∧
      (∀ c ∈ d.authTasks, c.uid ∉ r.joins → c ∈ d'.authTasks) := by
  have hI := Rep.run_reach max authn comp acts h
  have had : Rep.Addressed d := Rep.run_addressed acts (Rep.new_inv D max authn comp) (by intro c hc; simp [Rep.Driver.new] at hc) h
  obtain ⟨d', h1, h2⟩ := Rep.poll_done D ps d r hps hI had hf hc
  refine ⟨d', h1, ?_, ?_, h2.auth⟩
  · intro c hc' hu
    obtain ⟨k1, k2⟩ := h2.joined c hc' hu
    refine ⟨k1, fun f id w rest l e1 e2 => ?_⟩
    obtain ⟨a, ha⟩ := Option.ne_none_iff_exists'.1 (had c hc')
    obtain ⟨p, j1, j2⟩ := k2 f id w rest l a e1 e2 ha
    simp only [Rep.Peer.ident, Prod.mk.injEq] at j2
    exact ⟨a, ha, p, j1, j2⟩
  · intro c hc' ok hu
    obtain ⟨k1, k2⟩ := h2.conned c hc' ok hu
    refine ⟨k1, fun a e1 e2 => ⟨(k2 a e1 e2).1, fun e3 => ?_⟩⟩
    obtain ⟨p, j1, j2⟩ := (k2 a e1 e2).2 e3
    simp only [Rep.Peer.ident, Prod.mk.injEq] at j2
    exact ⟨p, j1, j2⟩

/-- A client whose handshake succeeds. -/
def Spec.goodClient (u : Nat) : Conn Nat := ⟨u, some u, ⟨[.data (Spec.authBytes [7])], [.ok 2, .ok 1], [.ok 1], [.ok 1]⟩⟩

/-- A client whose authentication frame ends after four bytes. -/
def Spec.cutClient (u : Nat) : Conn Nat := ⟨u, some u, ⟨[.data [1, 0, 0, 0], .data [1, 7]], [.ok 2, .ok 1], [.ok 1], []⟩⟩

/-- C86 is false: two subscribers finish their handshake before the driver is polled; the first one's task panicked. The poll
returns `Pending` although the other one's, which succeeded, is ready: it gets no session until something else wakes the driver. -/
theorem C86_publisher_left_waiting_refuted :
    let d := ({ max := none, authn := some fun _ => true } : Pub.Driver Nat).run
      [.iter ⟨none, none, some (Spec.cutClient 1)⟩, .iter ⟨none, none, some (Spec.goodClient 2)⟩, .iter ⟨none, some (0, true), none⟩, .iter ⟨none, some (0, true), none⟩]
    Fits d.authn d.connTasks d.authTasks ⟨[1, 2], [], []⟩ ∧
    (∃ id w, hsServer (fun _ => true) (Spec.goodClient 2).hs = .accepted id w [] []) ∧
    ∃ d', d.poll ⟨[1, 2], [], []⟩ 3 = some (d', ⟨[2], [], []⟩) ∧ d'.authTasks = [Spec.goodClient 2] ∧ d'.sessions = [] := by
  intro d
  have h1 : d.connTasks = [] := rfl
  have h2 : d.authTasks = [Spec.cutClient 1, Spec.goodClient 2] := rfl
  have h3 : d.authn = some fun _ => true := rfl
  refine ⟨⟨?_, by decide, ?_, by simp, by simp⟩, ⟨[7], _, rfl⟩, _, rfl, rfl, rfl⟩
  · rw [h1, h2]; decide
  · intro u hu
    refine ⟨_, h3, ?_⟩
    rw [h2]
    simp only [List.mem_cons, List.not_mem_nil, or_false] at hu
    rcases hu with rfl | rfl
    · exact ⟨_, List.mem_cons_self, rfl, fun w e => by cases e⟩
    · exact ⟨_, List.mem_cons_of_mem _ (List.mem_singleton.2 rfl), rfl, fun w e => by cases e⟩

/-- The same for a reply socket. -/
theorem C86_reply_left_waiting_refuted (D : Decompressors) :
    ∃ d, (Rep.Driver.new none (some fun _ => true) none : Rep.Driver Nat).run D
        [.accept (Spec.cutClient 1), .accept (Spec.goodClient 2), .ready 0 true, .ready 0 true] = .ok d ∧
      Fits d.authn d.connTasks d.authTasks ⟨[1, 2], [], []⟩ ∧
      ∃ d', d.poll D ⟨[1, 2], [], []⟩ [[], [], []] = .ok (some (d', ⟨[2], [], []⟩)) ∧ d'.authTasks = [Spec.goodClient 2] ∧ d'.conns = [] := by
  refine ⟨_, rfl, ⟨?_, by decide, ?_, by simp, by simp⟩, _, rfl, rfl, rfl⟩
  · show ([1, 2] : List Nat).Nodup
    decide
  · intro u hu
    refine ⟨_, rfl, ?_⟩
    simp only [List.mem_cons, List.not_mem_nil, or_false] at hu
    rcases hu with rfl | rfl
    · exact ⟨_, List.mem_cons_self, rfl, fun w e => by cases e⟩
    · exact ⟨_, List.mem_cons_of_mem _ (List.mem_singleton.2 rfl), rfl, fun w e => by cases e⟩

/-- Polls with a finished handshake, an established connection and a connection request ready at once. -/
example :
    let d := ({ max := some 3, authn := some fun _ => true } : Pub.Driver Nat).run
      [.iter ⟨none, none, some (Spec.goodClient 1)⟩, .iter ⟨none, none, some (Spec.goodClient 2)⟩, .iter ⟨none, some (0, true), none⟩]
    let r : Avail Nat := ⟨[1], [(2, true)], [Spec.goodClient 3]⟩
    Fits d.authn d.connTasks d.authTasks r ∧ Calm d.authn d.authTasks r ∧
    ∃ d', d.poll r (r.size + 1) = some (d', ⟨[], [], []⟩) ∧ d'.sessions = [(Spec.goodClient 1, [])] ∧ d'.authTasks = [Spec.goodClient 2] ∧
      d'.connTasks = [Spec.goodClient 3] := by
  intro d r
  have h1 : d.connTasks = [Spec.goodClient 2] := rfl
  have h2 : d.authTasks = [Spec.goodClient 1] := rfl
  have h3 : d.authn = some fun _ => true := rfl
  refine ⟨⟨?_, by decide, ?_, by decide, ?_⟩, ?_, _, rfl, rfl, rfl, rfl⟩
  · rw [h1, h2]; decide
  · intro u hu
    refine ⟨_, h3, ?_⟩
    rw [h2]
    cases List.mem_singleton.1 hu
    exact ⟨_, List.mem_cons_self, rfl, fun w e => by cases e⟩
  · intro x hx
    rw [h1]
    cases List.mem_singleton.1 hx
    exact ⟨_, List.mem_cons_self, rfl⟩
  · intro f hf c hc _ e
    rw [h3] at hf
    rw [h2] at hc
    cases hf
    cases List.mem_singleton.1 hc
    cases e

/-- The same for a reply socket. -/
example (D : Decompressors) :
    let r : Avail Nat := ⟨[1], [(2, true)], [Spec.goodClient 3]⟩
    ∃ d, (Rep.Driver.new (some 3) (some fun _ => true) none : Rep.Driver Nat).run D
        [.accept (Spec.goodClient 1), .accept (Spec.goodClient 2), .ready 0 true] = .ok d ∧
      Fits d.authn d.connTasks d.authTasks r ∧ Calm d.authn d.authTasks r ∧
      ∃ d', d.poll D r [[], [], [], []] = .ok (some (d', ⟨[], [], []⟩)) ∧ d'.conns.map (·.uid) = [1] ∧ d'.authTasks = [Spec.goodClient 2] ∧
        d'.connTasks = [Spec.goodClient 3] := by
  refine ⟨_, rfl, ⟨?_, by decide, ?_, by decide, ?_⟩, ?_, _, rfl, rfl, rfl, rfl⟩
  · show ([2, 1, 3] : List Nat).Nodup
    decide
  · intro u hu
    refine ⟨_, rfl, ?_⟩
    cases List.mem_singleton.1 hu
    exact ⟨_, List.mem_cons_self, rfl, fun w e => by cases e⟩
  · intro x hx
    cases List.mem_singleton.1 hx
    exact ⟨_, List.mem_cons_self, rfl⟩
  · intro f hf c hc _ e
    cases hf
    cases List.mem_singleton.1 hc
    cases e

end MsgRs.Props
