import Verif.Proofs.RepSolo
/-!
# C115: clients of a reply socket do not affect each other
-/
namespace MsgRs.Props
open MsgRs MsgRs.Rep

theorem own_fields {A B : Type} {p : Peer A} {q : Peer B} (h : p.own = q.own) :
    p.wr = q.wr ∧ p.egress = q.egress ∧ p.input = q.input ∧ p.sent = q.sent ∧ p.issued.map (·.2) = q.issued.map (·.2) := by
  have h1 : p.own.wr = q.own.wr := by rw [h]
  have h2 : p.own.egress = q.own.egress := by rw [h]
  have h3 : p.own.input = q.own.input := by rw [h]
  have h4 : p.own.sent = q.own.sent := by rw [h]
  have h5 : p.own.issued.map (·.2) = q.own.issued.map (·.2) := by rw [h]
  have key : ∀ {C : Type} (r : Peer C), r.own.issued.map (·.2) = r.issued.map (·.2) := by
    intro C r
    simp [Peer.own, Peer.rename, Function.comp_def]
  rw [key, key] at h5
  exact ⟨h1, h2, h3, h4, h5⟩

/-- C115: take any two histories of two reply sockets with the same compressor (the limits, the authenticators and all the other clients may be different), and a connection in each, on
which the same bytes arrive. If the two histories agree in what concerns these connections (`view`: when they were polled, how they took the writes, and what the application did with their own
requests), then the same was read from both, the same was handed over and written to both, byte for byte, and the requests had the same fates. Nothing else in
the histories matters: what other clients send, how many there are, which of their requests fail, how the application mixes its answers. -/
theorem C115_isolated {A B : Type} [DecidableEq A] [DecidableEq B] (D : Decompressors) (comp : Option Compressor)
    (max max' authn authn') (acts : List (Act A)) (acts' : List (Act B)) {d : Driver A} {d' : Driver B}
    (h : (Driver.new max authn comp : Driver A).run D acts = .ok d) (h' : (Driver.new max' authn' comp : Driver B).run D acts' = .ok d')
    {p : Peer A} {p' : Peer B} (hp : p ∈ d.conns) (hp' : p' ∈ d'.conns)
    (hone : (arrivals acts).count p.uid ≤ 1) (hone' : (arrivals acts').count p'.uid ≤ 1)
    (hin : p.input0 = p'.input0) (hview : view D p.uid (Driver.new max authn comp) acts = view D p'.uid (Driver.new max' authn' comp) acts') :
    p.wr = p'.wr ∧ p.egress = p'.egress ∧ p.input = p'.input ∧ p.sent = p'.sent ∧ p.issued.map (·.2) = p'.issued.map (·.2) ∧
    d.fates p.uid = d'.fates p'.uid := by
  obtain ⟨s, h1, h2, h3⟩ := reach_alone max authn comp acts h hp hone
  obtain ⟨s', g1, g2, g3⟩ := reach_alone max' authn' comp acts' h' hp' hone'
  rw [hin, hview, g1] at h1
  cases h1
  obtain ⟨a1, a2, a3, a4, a5⟩ := own_fields (h2.symm.trans g2)
  exact ⟨a1, a2, a3, a4, a5, h3.symm.trans g3⟩

/-- C115, as if alone: whatever happens in a reply socket, for every client whose requests were never refused for lack of room there is a history of a reply socket with the same
compressor to which no other client ever comes, that agrees with the given one in what concerns this client; so in it the client gets exactly the same bytes, and its
requests have the same fates. (Refusals are the one influence other clients have: C44.) -/
theorem C115_as_if_alone {A : Type} [DecidableEq A] (D : Decompressors) (max authn comp) (acts : List (Act A)) {d : Driver A}
    (h : (Driver.new max authn comp : Driver A).run D acts = .ok d) {p : Peer A} (hp : p ∈ d.conns) (hone : (arrivals acts).count p.uid ≤ 1)
    (hroom : ∀ m, (m, Fate.full) ∉ d.fates p.uid) :
    ∃ acts' d' p', arrivals acts' = [p.uid] ∧ (Driver.new none none comp : Driver A).run D acts' = .ok d' ∧ d'.conns = [p'] ∧
      p'.uid = p.uid ∧ p'.input0 = p.input0 ∧
      view D p.uid (Driver.new none none comp) acts' = view D p.uid (Driver.new max authn comp) acts ∧
      p'.wr = p.wr ∧ p'.egress = p.egress ∧ p'.input = p.input ∧ p'.sent = p.sent ∧ p'.issued.map (·.2) = p.issued.map (·.2) ∧
      d'.fates p.uid = d.fates p.uid := by
  have hd := new_inv (A := A) D max authn comp
  have h0 : (Driver.new max authn comp : Driver A).uids.count p.uid = 0 := by simp [Driver.new, Driver.uids]
  obtain ⟨acts', d', h1, h2, h3, q, p1, h4, h5, h6, h7, h8⟩ := run_solo_first (u := p.uid) acts hd (by omega) h (by simp [Driver.fates, Driver.new])
    (by simp [Driver.conns, Driver.new]) (List.mem_map.mpr ⟨p, hp, rfl⟩) hroom
  have hpp : p1 = p := by
    have hcount := run_uids (u := p.uid) acts hd h
    rw [h0] at hcount
    have hc2 : ((d.conns).map Peer.uid).count p.uid ≤ 1 := by
      simp only [Driver.uids, List.count_append, Driver.conns, List.map_append] at hcount ⊢; omega
    exact same_peer (d := { d with connTasks := [], authTasks := [], peers := d.conns, gone := [] }) (u := p.uid)
      (by simpa [Driver.uids] using hc2) h6 hp h7 rfl
  subst hpp
  have hq : q ∈ d'.conns := by rw [h4]; simp
  obtain ⟨a1, a2, a3, a4, a5, a6⟩ := C115_isolated D comp none max none authn acts' acts h2 h hq hp
    (by rw [h1, h5]; simp) hone h8 (by rw [h5]; exact h3)
  rw [h5] at a6
  exact ⟨acts', d', q, h1, h2, h4, h5, h8, h3, a1, a2, a3, a4, a5, a6⟩

namespace Neighbours

def conn (u : Nat) (x : Bytes) : Conn Nat := ⟨u, some u, ⟨[.data x], [], [], []⟩⟩
def frame (id : UInt32) (payload : Bytes) : Bytes := ReqRep.encode (ReqRep.Message.new id 0 payload)
def e : PEnv := ⟨[.ok 100, .ok 1], []⟩

/-- Two clients; one of them sends a request and then garbage; its request is answered, and then its connection is closed. -/
def busy : List (Act Nat) :=
  [.accept (conn 7 (frame 1 [5] ++ [0xff, 0xff, 0xff])), .ready 0 true, .accept (conn 8 (frame 5 [1] ++ frame 6 [2])), .ready 0 true,
   .peer 0 e, .peer 1 e, .recv, .peer 1 e, .recv, .recv, .peer 0 e, .respond 2 [9], .peer 1 e, .respond 0 [4], .drop 0, .peer 0 e, .peer 1 e, .peer 1 e, .peer 0 e, .peer 0 e]

/-- The second client without the first. -/
def quiet : List (Act Nat) :=
  [.accept (conn 3 (frame 5 [1] ++ frame 6 [2])), .ready 0 true,
   .peer 0 e, .recv, .peer 0 e, .recv, .respond 1 [9], .peer 0 e, .drop 0, .peer 0 e, .peer 0 e]

def D0 : Decompressors := ⟨fun _ => none, fun _ => none, fun _ => none, fun _ => none⟩
def new : Driver Nat := Driver.new none none none

/-- The name of a connection, what arrives on it and what was written to it. -/
def wires (r : R (Driver Nat)) : Option (List (Nat × Bytes)) :=
  match r with
  | .ok d => some (d.conns.map fun p => (p.uid, p.wr.wire))
  | .panic => none

/-- What concerned the second client was the same in both histories; it was answered in both. -/
theorem facts : view D0 8 new busy = view D0 3 new quiet ∧ (view D0 3 new quiet).length = 7 ∧
    (arrivals busy).count 8 = 1 ∧ (arrivals quiet).count 3 = 1 ∧
    wires (new.run D0 quiet) = some [(3, frame 6 [9])] ∧ wires (new.run D0 busy) = some [(8, frame 6 [9]), (7, frame 1 [4])] := by
  decide +kernel

/-- What became of a client's requests. -/
def fatesOf (r : R (Driver Nat)) (u : Nat) : Option (List (ReqRep.Message × Fate)) :=
  match r with
  | .ok d => some (d.fates u)
  | .panic => none

/-- The hypothesis of `C115_as_if_alone` about room is met by the second client: its requests were handed over. -/
theorem room : fatesOf (new.run D0 busy) 8 =
    some [(ReqRep.Message.new 5 0 [1], .delivered [1]), (ReqRep.Message.new 6 0 [2], .delivered [2])] := by
  decide +kernel

end Neighbours

end MsgRs.Props
