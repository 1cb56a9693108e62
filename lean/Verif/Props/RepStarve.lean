import Verif.Model.RepTurn
import Verif.Props.Starve
import Verif.Props.AcceptPoll
/-!
# C106 for the reply socket: connected clients and new ones
-/
namespace MsgRs.Props
open MsgRs Spec

section
variable {A : Type} [DecidableEq A]

theorem pollPeer_run (D : Decompressors) (k : Nat) (es : List Rep.PEnv) : ∀ (d d' : Rep.Driver A) (b : Bool), d.pollPeer D k es = .ok (some (d', b)) →
    ∃ acts : List (Rep.Act A), d.run D acts = .ok d' := by
  induction es with
  | nil => intro d d' b h; cases h
  | cons e es ih =>
    intro d d' b h
    rw [Rep.Driver.pollPeer] at h
    cases hp : d.peers[k]? with
    | none => rw [hp] at h; cases h; exact ⟨[], rfl⟩
    | some p =>
      rw [hp] at h
      simp only at h
      cases hi : p.iter d.comp d.slots d.next e with
      | panic => rw [hi] at h; cases h
      | ok po =>
        obtain ⟨p', o⟩ := po
        rw [hi, R.bind_ok] at h
        simp only at h
        cases hs : d.stepPeer D k e with
        | panic => rw [hs] at h; cases h
        | ok d1 =>
          rw [hs, R.bind_ok] at h
          have h1 : d.run D [.peer k e] = .ok d1 := by
            simp only [Rep.Driver.run, Rep.Driver.act, hs, R.bind_ok]
          cases o with
          | sent m => obtain ⟨acts, h2⟩ := ih d1 d' b h; exact ⟨[.peer k e] ++ acts, by rw [Rep.run_append, h1]; exact h2⟩
          | queued => obtain ⟨acts, h2⟩ := ih d1 d' b h; exact ⟨[.peer k e] ++ acts, by rw [Rep.run_append, h1]; exact h2⟩
          | pending => cases h; exact ⟨_, h1⟩
          | request _ _ => cases h; exact ⟨_, h1⟩
          | error => cases h; exact ⟨_, h1⟩
          | closed => cases h; exact ⟨_, h1⟩

theorem pollPeers_run (D : Decompressors) (order : List (Nat × List Rep.PEnv)) : ∀ (d d' : Rep.Driver A) (b : Bool), d.pollPeers D order = .ok (some (d', b)) →
    ∃ acts : List (Rep.Act A), d.run D acts = .ok d' := by
  induction order with
  | nil => intro d d' b h; cases h; exact ⟨[], rfl⟩
  | cons x order ih =>
    intro d d' b h
    obtain ⟨k, es⟩ := x
    rw [Rep.Driver.pollPeers] at h
    cases hp : d.pollPeer D k es with
    | panic => rw [hp] at h; cases h
    | ok r =>
      rw [hp, R.bind_ok] at h
      match r, hp, h with
      | none, _, h => cases h
      | some (d1, true), hp, h =>
        cases h
        exact pollPeer_run D k es _ _ _ hp
      | some (d1, false), hp, h =>
        obtain ⟨a1, h1⟩ := pollPeer_run D k es _ _ _ hp
        obtain ⟨a2, h2⟩ := ih d1 d' b h
        exact ⟨a1 ++ a2, by rw [Rep.run_append, h1]; exact h2⟩

/-- Each iteration of the loop is a piece of a history of `Model/RepDriver`: what is proved of all histories holds of the loop as it is. -/
theorem C106_reply_turn_is_history (D : Decompressors) (d : Rep.Driver A) (order : List (Nat × List Rep.PEnv)) (r : Avail A) (d' : Rep.Driver A) (r' : Avail A) (b : Bool)
    (h : d.turn D order r = .ok (some (d', r', b))) : ∃ acts : List (Rep.Act A), d.run D acts = .ok d' := by
  unfold Rep.Driver.turn at h
  cases hp : d.pollPeers D order with
  | panic => rw [hp] at h; cases h
  | ok x =>
    rw [hp, R.bind_ok] at h
    match x, hp, h with
    | none, _, h => cases h
    | some (d1, true), hp, h => cases h; exact pollPeers_run D order _ _ _ hp
    | some (d1, false), hp, h =>
      obtain ⟨a1, h1⟩ := pollPeers_run D order _ _ _ hp
      obtain ⟨a2, h2⟩ := iter_run D d1 r
      simp only [R.pure_eq, R.ok.injEq, Option.some.injEq] at h
      rw [h] at h2
      exact ⟨a1 ++ a2, by rw [Rep.run_append, h1]; exact h2⟩

end

/-! ## One client that always has a request -/

/-- A reply socket with one connected client, which will answer reads with `L`; the application has answered nothing, `n` requests were read. -/
structure RepBusy (L : List ReadAns) (n : Nat) (d : Rep.Driver Nat) : Prop where
  up : d.connTasks = [] ∧ d.authTasks = [] ∧ d.active = 1 ∧ d.log.length = n ∧ ∀ h b, d.slots h ≠ .responded b
  peer : ∃ p, d.peers = [p] ∧ p.uid = 0 ∧ p.shouldFlush = false ∧ p.egress = [] ∧ p.wr.buf = [] ∧ 0 < p.wr.boundary ∧ p.input = L ∧ ∃ b, p.rd = { st := .header, readable := b }

theorem popQueue_unanswered (slots : Nat → Rep.Slot) (hs : ∀ h b, slots h ≠ .responded b) (pend : List (Nat × UInt32)) : ∀ q : List Nat,
    (∃ pend' q', Rep.popQueue slots pend q = (none, pend', q')) ∨ ∃ h pend' q', Rep.popQueue slots pend q = (some (h, none), pend', q') := by
  intro q
  induction q with
  | nil => exact .inl ⟨_, _, rfl⟩
  | cons h q ih =>
    rw [Rep.popQueue]
    split
    · rename_i b _ hb _
      exact absurd hb (hs h b)
    · exact .inr ⟨_, _, _, rfl⟩
    · exact ih

/-- One iteration of the loop: a request is read, nothing else happens. -/
theorem repBusy_step (D : Decompressors) {L : List ReadAns} {n : Nat} {d : Rep.Driver Nat} (h : RepBusy (.data (reqBytes 7 []) :: L) n d) (r : Avail Nat) (e : Rep.PEnv) (es : List Rep.PEnv) :
    ∃ d', d.turn D [(0, e :: es)] r = .ok (some (d', r, true)) ∧ RepBusy L (n + 1) d' := by
  obtain ⟨⟨h1, h2, h3, h4, h5⟩, p, p1, p2, p3, p4, p5, p6, p7, b, p8⟩ := h
  have hr : p.rd.pollNext ReqRep.codec p.input = .ok (.item (ReqRep.Message.new 7 0 []), { st := .header, readable := true }, L) := by
    rw [p7, p8]
    cases b <;> cases L <;> rfl
  have hf : p.flushStep e = p := by
    unfold Rep.Peer.flushStep
    rw [if_neg (by rw [p3]; simp)]
  have hready : p.wr.ready e.readyAns = (.ok, p.wr) := by
    unfold Writer.ready
    rw [if_neg (by rw [p5]; simp only [List.length_nil]; omega)]
  obtain ⟨pend, q, i1⟩ : ∃ (pend : List (Nat × UInt32)) (q : List Nat), p.iter d.comp d.slots d.next e = .ok ({ p with pend, queue := q, rd := { st := .header, readable := true }, input := L, polls := p.polls + 1, issued := p.issued ++ [(d.next, ReqRep.Message.new 7 0 [])] }, .request d.next (ReqRep.Message.new 7 0 [])) := by
    unfold Rep.Peer.iter
    rw [hf]
    simp only [hready, p4]
    unfold Rep.Peer.completeStep
    rcases popQueue_unanswered d.slots h5 p.pend p.queue with ⟨pend', q', hq⟩ | ⟨k, pend', q', hq⟩
    · simp only [hq, Rep.Peer.readStep, hr, R.bind_ok]
      exact ⟨_, _, rfl⟩
    · simp only [hq, Rep.Peer.readStep, hr, R.bind_ok]
      exact ⟨_, _, rfl⟩
  let p' : Rep.Peer Nat := { p with pend, queue := q, rd := { st := .header, readable := true }, input := L, polls := p.polls + 1, issued := p.issued ++ [(d.next, ReqRep.Message.new 7 0 [])] }
  have hdec : tryDecompress D (ReqRep.Message.new 7 0 []).header.ctype (ReqRep.Message.new 7 0 []).payload = some [] := rfl
  obtain ⟨d', e1, f1⟩ : ∃ d', d.stepPeer D 0 e = .ok d' ∧ RepBusy L (n + 1) d' := by
    refine ⟨_, by simp only [Rep.Driver.stepPeer]; rw [p1]; simp only [List.getElem?_cons_zero]; rw [i1]; rfl, ?_⟩
    simp only [R.bind_ok, List.set]
    unfold Rep.Driver.onRequest
    rw [hdec]
    simp only
    split
    · exact ⟨⟨h1, h2, h3, by simp [h4], h5⟩, p', rfl, p2, p3, p4, p5, p6, rfl, true, rfl⟩
    · refine ⟨⟨h1, h2, h3, by simp [h4], ?_⟩, p'.wake d.next, rfl, ?_⟩
      · intro h b
        show (if h = d.next then Rep.Slot.dropped else d.slots h) ≠ _
        split
        · exact fun h => by cases h
        · exact h5 h b
      · unfold Rep.Peer.wake
        split
        · exact ⟨p2, p3, p4, p5, p6, rfl, true, rfl⟩
        · exact ⟨p2, p3, p4, p5, p6, rfl, true, rfl⟩
  refine ⟨d', ?_, f1⟩
  have hpp : d.pollPeer D 0 (e :: es) = .ok (some (d', true)) := by
    rw [Rep.Driver.pollPeer, p1]
    simp only [List.getElem?_cons_zero]
    rw [i1, R.bind_ok]
    simp only
    rw [e1]
    rfl
  unfold Rep.Driver.turn
  rw [Rep.Driver.pollPeers, hpp]
  rfl

theorem repBusy_many (D : Decompressors) (r : Avail Nat) : ∀ (os : List (List Rep.PEnv)) (m : Nat) (d : Rep.Driver Nat), (∀ es ∈ os, es ≠ []) →
    RepBusy (List.replicate os.length (.data (reqBytes 7 []))) m d →
    ∃ d', d.turns D r (os.map fun es => [(0, es)]) = .ok (some (d', r)) ∧ RepBusy [] (m + os.length) d' := by
  intro os
  induction os with
  | nil => intro m d _ h; exact ⟨d, rfl, h⟩
  | cons es os ih =>
    intro m d hne h
    match es, hne es (List.mem_cons_self ..) with
    | e :: es, _ =>
      obtain ⟨d1, g1, g2⟩ := repBusy_step D (L := List.replicate os.length (.data (reqBytes 7 []))) h r e es
      obtain ⟨d', g3, g4⟩ := ih (m + 1) d1 (fun x hx => hne x (List.mem_cons_of_mem _ hx)) g2
      refine ⟨d', ?_, by rw [List.length_cons, show m + (os.length + 1) = m + 1 + os.length by omega]; exact g4⟩
      simp only [List.map_cons]
      rw [Rep.Driver.turns, g1]
      exact g3

/-- C106 fails for a reply socket: as long as a connected client goes on sending requests, the background task does not look at new clients. For every `n` there is a history after which, whoever has finished the handshake,
has just connected or wants to (`r`), and however the connection of the one client it has answers writes, the loop handles `n` requests of that client and
nobody else: all of `r` is still waiting, and the one client is the only one there is. -/
theorem C106_refuted_replier (D : Decompressors) (n : Nat) : ∃ (acts : List (Rep.Act Nat)) (d : Rep.Driver Nat), (Rep.Driver.new none none none : Rep.Driver Nat).run D acts = .ok d ∧ d.log = [] ∧
    ∀ (r : Avail Nat) (os : List (List Rep.PEnv)), os.length = n → (∀ es ∈ os, es ≠ []) →
      ∃ d', d.turns D r (os.map fun es => [(0, es)]) = .ok (some (d', r)) ∧ d'.log.length = n ∧ d'.active = 1 ∧ d'.connTasks = [] ∧ d'.authTasks = [] ∧ d'.peers.map (·.uid) = [0] := by
  refine ⟨[.accept ⟨0, some 0, ⟨List.replicate n (.data (reqBytes 7 [])), [], [], []⟩⟩, .ready 0 true], _, rfl, rfl, ?_⟩
  intro r os hn hne
  obtain ⟨d', g1, ⟨a1, a2, a3, a4, -⟩, p, b1, b2, -⟩ := repBusy_many D r os 0
    (((Rep.Driver.new none none none : Rep.Driver Nat).stepAccept ⟨0, some 0, ⟨List.replicate n (.data (reqBytes 7 [])), [], [], []⟩⟩).stepConn 0 true) hne
    (by
      rw [hn]
      exact ⟨⟨rfl, rfl, rfl, rfl, fun h b => fun hh => by cases hh⟩, _, rfl, rfl, rfl, rfl, rfl, (show 0 < 8192 by decide), rfl, _, rfl⟩)
  exact ⟨d', g1, by omega, a3, a1, a2, by rw [b1]; simp [b2]⟩

/-- What holds: when no connected client has anything, the same iteration deals with the new ones (as C86 says it does). -/
theorem C106_reply_pause {A : Type} [DecidableEq A] (D : Decompressors) (d d1 : Rep.Driver A) (order : List (Nat × List Rep.PEnv)) (r : Avail A)
    (h : d.pollPeers D order = .ok (some (d1, false))) : d.turn D order r = .ok (some (d1.pollIter r)) := by
  unfold Rep.Driver.turn
  rw [h]
  rfl

end MsgRs.Props
