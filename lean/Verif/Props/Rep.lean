import Verif.Props.Compression
import Verif.Proofs.RepOrigin
import Verif.Proofs.RepStats
import Verif.Proofs.RepFlush
import Verif.Props.Admission
/-!
# Properties C28, C29, C30, C32, C42–C45, C71: the reply socket

A history is a list of `Rep.Act`: iterations of the loop of a connection, reports of the listener, of accept
futures and of authentication tasks, and the application receiving, answering and dropping requests.
`d.conns` are all connections served so far; of each, `issued` are the request frames read from it and
`answers` the responses queued for it, both tagged with the request's number (requests are numbered in the
order they are read, over all connections), and `wr.wire` the bytes written to it. `d.taken` are the requests
the application has received, `d.inbox` those waiting in the channel.
-/
namespace MsgRs.Props
open MsgRs MsgRs.Rep
variable {A : Type} [DecidableEq A]

/-- The reply socket never panics, in any history. -/
theorem C44_no_panic (D : Decompressors) (max authn comp) (acts : List (Act A)) :
    ∃ d, (Driver.new max authn comp : Driver A).run D acts = .ok d := by
  obtain ⟨d, h, -⟩ := run_inv acts (new_inv D max authn comp : DInv D (Driver.new max authn comp : Driver A) none)
  exact ⟨d, h⟩

/-! ## Admission -/

/-- C28: with `max_clients = n`, in every history at most `n` connections are being accepted, authenticated or
served. -/
theorem C28_reply_max_clients (D : Decompressors) (n : Nat) (authn comp) (acts : List (Act A)) (d : Driver A)
    (h : (Driver.new (some n) authn comp : Driver A).run D acts = .ok d) :
    d.connTasks.length + d.authTasks.length + d.peers.length ≤ n := by
  obtain ⟨h1, h2, -⟩ := run_adm acts (new_inv D (some n) authn comp) (new_ainv ..) h
  exact Nat.le_trans h1.le (h1.max n h2)

/-- C30, the reply socket: with an authenticator, every connection ever served had sent a token that the
authenticator accepts, and requests are read only from what came after it. -/
theorem C30_reply_only_authenticated (D : Decompressors) (max) (f : Bytes → Bool) (comp) (acts : List (Act A))
    (d : Driver A) (h : (Driver.new max (some f) comp : Driver A).run D acts = .ok d) (p : Peer A)
    (hp : p ∈ d.conns) :
    ∃ c id pre lost, .accept c ∈ acts ∧ c.uid = p.uid ∧ c.addr = some p.addr ∧ f id = true ∧
      c.hs.reads = pre ++ p.input0 ∧ dataOf pre = Spec.authBytes id ++ lost := by
  obtain ⟨c, hc, hu, hadr, id, wire, lost, ha⟩ := reach_origin max (some f) comp acts h p hp
  have := C30_handshake f c.hs
  rw [ha] at this
  obtain ⟨hf, -, -, pre, hq, hd⟩ := this
  exact ⟨c, id, pre, lost, hc, hu, hadr, hf, hq, hd⟩

/-- C62 for the reply socket: in every history, every connection that was ever served was reported by the
listener, and if its peer (with token `id0`) followed the protocol, i.e. sent nothing beyond its
authentication message before the Ack, then what the request codec reads from it is exactly what the peer sent after
that message. -/
theorem C62_reply_socket (D : Decompressors) (max) (f : Bytes → Bool) (comp) (acts : List (Act A))
    (d : Driver A) (h : (Driver.new max (some f) comp : Driver A).run D acts = .ok d) (p : Peer A)
    (hp : p ∈ d.conns) :
    ∃ c, .accept c ∈ acts ∧ c.uid = p.uid ∧ c.addr = some p.addr ∧
      ∀ id0 : Bytes, id0.length < 2 ^ 32 →
        (∀ pre, c.hs.reads = pre ++ p.input0 → dataOf pre <+: Spec.authBytes id0) →
        f id0 = true ∧ dataOf c.hs.reads = Spec.authBytes id0 ++ dataOf p.input0 := by
  obtain ⟨c, hc, hu, hadr, id, wire, lost, ha⟩ := reach_origin max (some f) comp acts h p hp
  refine ⟨c, hc, hu, hadr, ?_⟩
  intro id0 hid0 hfollow
  obtain ⟨rfl, -, h3, -⟩ := C62_server_switch f c.hs id wire p.input0 lost ha id0 hid0 hfollow
  have := C30_handshake f c.hs
  rw [ha] at this
  exact ⟨this.1, h3⟩

/-- C62, without authenticator: the request codec reads everything the connection sends. -/
theorem C62_reply_socket_no_auth (D : Decompressors) (max) (comp) (acts : List (Act A))
    (d : Driver A) (h : (Driver.new max none comp : Driver A).run D acts = .ok d) (p : Peer A)
    (hp : p ∈ d.conns) :
    ∃ c, .accept c ∈ acts ∧ c.uid = p.uid ∧ c.addr = some p.addr ∧ p.input0 = c.hs.reads :=
  reach_origin max none comp acts h p hp

/-- C29 for the reply socket (partial): the counter is never below the number of connections, and it is exact
in every history in which no accepted client has the address of another one present and none makes its
authentication task panic. Missing: the other histories, for which it is false
(`C29_counter_leaks_refuted`, `C32_same_address_refuted`). -/
theorem C29_reply_counter_exact_partial (D : Decompressors) (max authn comp) (acts : List (Act A)) (d : Driver A)
    (h : (Driver.new max authn comp : Driver A).run D acts = .ok d) :
    d.connTasks.length + d.authTasks.length + d.peers.length ≤ d.active ∧
    ((∀ pre c post, acts = pre ++ .accept c :: post →
        ∀ d0, (Driver.new max authn comp : Driver A).run D pre = .ok d0 →
          (∀ a, c.addr = some a → a ∉ d0.addrs) ∧ ∀ f, authn = some f → hsServer f c.hs ≠ .panicked) →
      d.active = d.connTasks.length + d.authTasks.length + d.peers.length) := by
  refine ⟨(run_adm acts (new_inv D max authn comp) (new_ainv ..) h).1.le, fun hf => ?_⟩
  exact (run_exact acts (new_inv D max authn comp) (new_ainv ..) (new_xinv ..) h hf).eq

/-- C32 (refuted as stated): two clients with the same address, as are all clients of an IPC listener (their
address is the listener's path). The first one is being served when the second connects; then it is dropped,
although it never closed its connection and no limit is set. -/
theorem C32_same_address_refuted (D : Decompressors) :
    let c : Nat → Conn String := fun u => ⟨u, some "/tmp/listener.sock", ⟨[], [], [], []⟩⟩
    ∃ d1 d2, (Driver.new none none none : Driver String).run D [.accept (c 1), .ready 0 true] = .ok d1 ∧
      (Driver.new none none none : Driver String).run D
        [.accept (c 1), .ready 0 true, .accept (c 2), .ready 0 true] = .ok d2 ∧
      d1.peers.map (·.uid) = [1] ∧ d2.peers.map (·.uid) = [2] ∧ d2.active = 2 := by
  refine ⟨_, _, rfl, rfl, rfl, ?_, rfl⟩
  simp [Driver.run, Driver.act, Driver.stepAccept, Driver.stepConn, Driver.insertPeer, Driver.new, Peer.new]

/-- With distinct addresses, no client being admitted has the address of one being served. -/
theorem others_addr {d : Driver A} (hx : XInv d) {p : Peer A} (hp : p ∈ d.peers) :
    ∀ c ∈ d.connTasks ++ d.authTasks, c.addr ≠ some p.addr := by
  intro c hc heq
  have hn := hx.addrs
  simp only [Driver.addrs] at hn
  rw [List.nodup_append] at hn
  have hpa : p.addr ∈ d.peers.map (·.addr) := List.mem_map.mpr ⟨p, hp, rfl⟩
  rcases List.mem_append.mp hc with hc | hc
  · exact hn.2.2 p.addr (List.mem_filterMap.mpr ⟨c, hc, heq⟩) p.addr (List.mem_append.mpr (.inr hpa)) rfl
  · have hn2 := hn.2.1
    rw [List.nodup_append] at hn2
    exact hn2.2.2 p.addr (List.mem_filterMap.mpr ⟨c, hc, heq⟩) p.addr hpa rfl

/-- What a step does to the connections served. -/
theorem served_step {D : Decompressors} {d d' : Driver A} (a : Act A) (hd : DInv D d none)
    (ha : d.act D a = .ok d') (p : Peer A) (hp : p ∈ d.peers) (hx : ∀ c ∈ d.connTasks ++ d.authTasks, c.addr ≠ some p.addr) :
    (∃ p' ∈ d'.peers, p'.uid = p.uid ∧ p'.addr = p.addr ∧ p'.input0 = p.input0) ∨
    ∃ k e p', a = .peer k e ∧ d.peers[k]? = some p ∧ p.iter d.comp d.slots d.next e = .ok (p', .closed) := by
  have same : d'.peers = d.peers → _ := fun he =>
    (Or.inl ⟨p, by rw [he]; exact hp, rfl, rfl, rfl⟩ :
      (∃ p' ∈ d'.peers, p'.uid = p.uid ∧ p'.addr = p.addr ∧ p'.input0 = p.input0) ∨
      ∃ k e p', a = .peer k e ∧ d.peers[k]? = some p ∧ p.iter d.comp d.slots d.next e = .ok (p', .closed))
  have wakes : ∀ x, d'.peers = d.peers.map (Peer.wake x) →
      (∃ p' ∈ d'.peers, p'.uid = p.uid ∧ p'.addr = p.addr ∧ p'.input0 = p.input0) := by
    intro x he
    obtain ⟨h1, h2, -, -, h5⟩ := wake_fields p x
    exact ⟨p.wake x, by rw [he]; exact List.mem_map.mpr ⟨p, hp, rfl⟩, h1, h2, h5⟩
  cases a with
  | peer k e =>
    simp only [Driver.act, Driver.stepPeer] at ha
    cases hk : d.peers[k]? with
    | none => simp only [hk] at ha; cases ha; exact same rfl
    | some q =>
      obtain ⟨hc, hl⟩ := hd.peers q (List.mem_of_getElem? hk)
      obtain ⟨q', o, hit, hs⟩ := iter_spec hc hl (hd.future _ (Nat.le_refl _)) e
      simp only [hk, hit, R.bind_ok, R.pure_eq] at ha
      -- the connections after the iteration, unless this one was closed
      have upd : ∃ p' ∈ d.peers.set k q', p'.uid = p.uid ∧ p'.addr = p.addr ∧ p'.input0 = p.input0 := by
        obtain ⟨j, hj, hjp⟩ := List.mem_iff_getElem.mp hp
        by_cases hjk : j = k
        · subst hjk
          have : q = p := by rw [List.getElem?_eq_getElem hj, hjp] at hk; exact (Option.some.inj hk).symm
          subst this
          exact ⟨q', List.mem_iff_getElem.mpr ⟨j, by simpa using hj, by simp⟩, hs.uid, hs.addr, hs.input0⟩
        · exact ⟨p, List.mem_iff_getElem.mpr ⟨j, by simpa using hj, by
            rw [List.getElem_set_ne (by omega)]; exact hjp⟩, rfl, rfl, rfl⟩
      cases o with
      | request h m =>
        left
        obtain ⟨p', hp', h1, h2, h3⟩ := upd
        cases ha
        simp only [Driver.onRequest]
        split
        · obtain ⟨g1, g2, -, -, g5⟩ := wake_fields p' h
          exact ⟨p'.wake h, List.mem_map.mpr ⟨p', hp', rfl⟩, g1.trans h1, g2.trans h2, g5.trans h3⟩
        · split
          · exact ⟨p', hp', h1, h2, h3⟩
          · obtain ⟨g1, g2, -, -, g5⟩ := wake_fields p' h
            exact ⟨p'.wake h, List.mem_map.mpr ⟨p', hp', rfl⟩, g1.trans h1, g2.trans h2, g5.trans h3⟩
      | sent m => cases ha; exact .inl upd
      | queued => cases ha; exact .inl upd
      | error => cases ha; exact .inl upd
      | pending => cases ha; exact .inl upd
      | closed =>
        cases ha
        obtain ⟨j, hj, hjp⟩ := List.mem_iff_getElem.mp hp
        by_cases hjk : j = k
        · subst hjk
          have : q = p := by rw [List.getElem?_eq_getElem hj, hjp] at hk; exact (Option.some.inj hk).symm
          subst this
          exact .inr ⟨j, e, q', rfl, by rw [hk], hit⟩
        · left
          refine ⟨p, ?_, rfl, rfl, rfl⟩
          rw [List.mem_eraseIdx_iff_getElem]
          exact ⟨j, hj, hjk, hjp⟩
  | join i =>
    cases ha
    unfold Driver.stepJoin
    cases hau : d.authn with
    | none => simp only; exact .inl ⟨p, hp, rfl, rfl, rfl⟩
    | some f =>
      cases hi : d.authTasks[i]? with
      | none => simp only; exact .inl ⟨p, hp, rfl, rfl, rfl⟩
      | some c =>
        simp only
        cases hh : hsServer f c.hs with
        | waiting w => simp only; exact .inl ⟨p, hp, rfl, rfl, rfl⟩
        | failed w => simp only; exact .inl ⟨p, hp, rfl, rfl, rfl⟩
        | panicked => simp only; exact .inl ⟨p, hp, rfl, rfl, rfl⟩
        | accepted id w rest lost =>
          cases hca : c.addr with
          | none => simp only; exact .inl ⟨p, hp, rfl, rfl, rfl⟩
          | some x =>
            simp only
            left
            refine ⟨p, ?_, rfl, rfl, rfl⟩
            simp only [Driver.insertPeer, List.mem_append, List.mem_filter]
            refine .inl ⟨hp, decide_eq_true ?_⟩
            intro heq
            change p.addr = x at heq
            exact hx c (List.mem_append.mpr (.inr (List.mem_of_getElem? hi))) (by rw [hca, heq])
  | ready i ok =>
    cases ha
    unfold Driver.stepConn
    cases hi : d.connTasks[i]? with
    | none => simp only; exact .inl ⟨p, hp, rfl, rfl, rfl⟩
    | some c =>
      simp only
      cases ok with
      | false => exact .inl ⟨p, hp, rfl, rfl, rfl⟩
      | true =>
        cases hca : c.addr with
        | none => simp only; exact .inl ⟨p, hp, rfl, rfl, rfl⟩
        | some x =>
          cases hau : d.authn with
          | some f => simp only; exact .inl ⟨p, hp, rfl, rfl, rfl⟩
          | none =>
            simp only
            left
            refine ⟨p, ?_, rfl, rfl, rfl⟩
            simp only [if_true, Driver.insertPeer, List.mem_append, List.mem_filter]
            refine .inl ⟨hp, decide_eq_true ?_⟩
            intro heq
            change p.addr = x at heq
            exact hx c (List.mem_append.mpr (.inl (List.mem_of_getElem? hi))) (by rw [hca, heq])
  | accept c =>
    cases ha
    left
    refine ⟨p, ?_, rfl, rfl, rfl⟩
    unfold Driver.stepAccept
    repeat' split
    all_goals exact hp
  | recv => simp only [Driver.act] at ha; split at ha <;> cases ha <;> exact same rfl
  | respond i b =>
    simp only [Driver.act] at ha
    split at ha
    · cases ha; exact same rfl
    · cases ha; exact .inl (wakes _ rfl)
  | drop i =>
    simp only [Driver.act] at ha
    split at ha
    · cases ha; exact same rfl
    · cases ha; exact .inl (wakes _ rfl)

/-- C32 (partial): if every client accepted has an address different from those of the clients present (as TCP
and QUIC clients do) and no authentication task panics, then in every history (1) a client that is being
served goes on being served until its own connection ends; (2) without authenticator every client whose
connection is established is served from then on; (3) with one, every client whose handshake succeeds is.
Missing: clients with equal addresses, for which it is false (`C32_same_address_refuted`). -/
theorem C32_distinct_addresses_served_partial (D : Decompressors) (max authn comp) (acts : List (Act A))
    (hf : ∀ pre c post, acts = pre ++ .accept c :: post →
      ∀ d0, (Driver.new max authn comp : Driver A).run D pre = .ok d0 →
        (∀ a, c.addr = some a → a ∉ d0.addrs) ∧ ∀ f, authn = some f → hsServer f c.hs ≠ .panicked)
    (d d' : Driver A) (h : (Driver.new max authn comp : Driver A).run D acts = .ok d)
    (a : Act A) (ha : d.act D a = .ok d') :
    (∀ p ∈ d.peers, (∃ p' ∈ d'.peers, p'.uid = p.uid ∧ p'.addr = p.addr ∧ p'.input0 = p.input0) ∨
      ∃ k e p', a = .peer k e ∧ d.peers[k]? = some p ∧ p.iter d.comp d.slots d.next e = .ok (p', .closed)) ∧
    (∀ i c x, a = .ready i true → d.connTasks[i]? = some c → c.addr = some x → authn = none →
      ∃ p' ∈ d'.peers, p'.uid = c.uid ∧ p'.addr = x ∧ p'.input0 = c.hs.reads) ∧
    (∀ i c x f id w rest lost, a = .join i → d.authTasks[i]? = some c → c.addr = some x → authn = some f →
      hsServer f c.hs = .accepted id w rest lost →
      ∃ p' ∈ d'.peers, p'.uid = c.uid ∧ p'.addr = x ∧ p'.input0 = rest) := by
  have hd := run_reach max authn comp acts h
  have hx := run_exact acts (new_inv D max authn comp) (new_ainv ..) (new_xinv ..) h hf
  have hau : d.authn = authn := (run_adm acts (new_inv D max authn comp) (new_ainv ..) h).2.2
  refine ⟨fun p hp => served_step a hd ha p hp (others_addr hx hp), ?_, ?_⟩
  · intro i c x he hi hc hn
    subst he
    cases ha
    refine ⟨Peer.new c.uid x c.hs.reads, ?_, rfl, rfl, rfl⟩
    simp [Driver.stepConn, hi, hc, hau, hn, Driver.insertPeer]
  · intro i c x f id w rest lost he hi hc hn hh
    subst he
    cases ha
    refine ⟨Peer.new c.uid x rest, ?_, rfl, rfl, rfl⟩
    simp [Driver.stepJoin, hi, hc, hau, hn, hh, Driver.insertPeer]

/-- Two clients, admitted one after the other, both served. -/
example (D : Decompressors) :
    let c : Nat → Conn Nat := fun u => ⟨u, some u, ⟨[], [], [], []⟩⟩
    let acts : List (Act Nat) := [.accept (c 1), .ready 0 true, .accept (c 2), .ready 0 true]
    (∀ pre c post, acts = pre ++ .accept c :: post →
      ∀ d0, (Driver.new none none none : Driver Nat).run D pre = .ok d0 →
        (∀ a, c.addr = some a → a ∉ d0.addrs) ∧ ∀ f, (none : Option (Bytes → Bool)) = some f → hsServer f c.hs ≠ .panicked) ∧
    ∃ d, (Driver.new none none none : Driver Nat).run D acts = .ok d ∧ d.peers.map (·.uid) = [1, 2] := by
  intro c acts
  refine ⟨?_, _, rfl, rfl⟩
  intro pre c0 post he d0 hd0
  refine ⟨?_, by simp⟩
  match pre, he with
  | [], he =>
    obtain ⟨h1, -⟩ := List.cons.inj he
    cases h1
    cases hd0
    simp [Driver.addrs, Driver.new]
  | [_, _], he =>
    simp only [acts, List.cons_append, List.nil_append, List.cons.injEq] at he
    obtain ⟨rfl, rfl, h1, -⟩ := he
    cases h1
    cases hd0
    intro a ha
    cases ha
    decide
  | [_], he => simp [acts] at he
  | [_, _, _], he => simp [acts] at he
  | [_, _, _, _], he => simp [acts] at he
  | _ :: _ :: _ :: _ :: _ :: _, he => simp [acts] at he

/-! ## Responses -/

/-- A request that has been answered was received by the application, which answered it. -/
theorem answered_taken {D : Decompressors} {max authn comp} {acts : List (Act A)} {d : Driver A}
    (h : (Driver.new max authn comp : Driver A).run D acts = .ok d) {p : Peer A} (hp : p ∈ d.conns)
    {x : Nat} {rq : ReqRep.Message} (hi : (x, rq) ∈ p.issued) {b : Bytes} (hs : d.slots x = .responded b) :
    ∃ r ∈ d.taken, r.handle = x ∧ r.source = p.addr ∧ tryDecompress D rq.header.ctype rq.payload = some r.msg := by
  have hd := run_reach max authn comp acts h
  obtain ⟨f, hf⟩ := hd.issued p hp x rq hi
  cases f with
  | undecodable => rcases hd.dropped _ _ _ _ hf (by intro; simp) with h1 | h1 <;> simp [hs] at h1
  | full => rcases hd.dropped _ _ _ _ hf (by intro; simp) with h1 | h1 <;> simp [hs] at h1
  | delivered pl =>
    have hm : (x, pl) ∈ deliveredOf d.log := List.mem_filterMap.mpr ⟨_, hf, rfl⟩
    rw [← hd.inbox] at hm
    obtain ⟨r, hr, he⟩ := List.mem_map.mp hm
    obtain ⟨rfl, rfl⟩ := Prod.mk.inj he
    have hr' := hr
    rw [List.mem_append] at hr
    rcases hr with hr | hr
    · exact ⟨r, hr, rfl, hd.source p hp _ _ hi r hr' rfl, hd.delivered _ _ _ _ hf⟩
    · have := hd.waiting r (.inr hr)
      rw [hs] at this
      cases this

/-- C42: in every history, for every connection: the bytes written to it are a prefix of the encodings of its
`answers`, in order; every answer answers a request read from this very connection, carries that request's id,
and its payload is what the application passed to `respond` for that request (compressed as configured), which
the application had received with this connection's address as its source; no request is answered twice, and
no request belongs to two connections. -/
theorem C42_responses_match (D : Decompressors) (max authn comp) (acts : List (Act A)) (d : Driver A)
    (h : (Driver.new max authn comp : Driver A).run D acts = .ok d) (p : Peer A) (hp : p ∈ d.conns) :
    p.wr.wire <+: (p.answers.map (·.2)).flatMap ReqRep.encode ∧
    (p.answers.map (·.1)).Nodup ∧
    (∀ x m, (x, m) ∈ p.answers → ∃ rq b, (x, rq) ∈ p.issued ∧ replyPrepare comp rq.header.id b = some m ∧
      m.header.id = rq.header.id ∧
      (∃ r ∈ d.taken, r.handle = x ∧ r.source = p.addr ∧ tryDecompress D rq.header.ctype rq.payload = some r.msg) ∧
      ∃ pre i post d0 r, acts = pre ++ .respond i b :: post ∧
        (Driver.new max authn comp : Driver A).run D pre = .ok d0 ∧ d0.held[i]? = some r ∧ r.handle = x) ∧
    (∀ q ∈ d.conns, ∀ x m m', (x, m) ∈ p.issued → (x, m') ∈ q.issued → q.uid = p.uid) := by
  have hd := run_reach max authn comp acts h
  have hcomp : d.comp = comp := (run_cfg acts h).2
  have hc : PCore d.comp d.slots d.next p := by
    simp only [Driver.conns, List.mem_append] at hp
    exact hp.elim (fun hp => (hd.peers p hp).1) (hd.gone p)
  refine ⟨?_, ?_, ?_, ?_⟩
  · rw [← hc.out, List.flatMap_append, ← hc.bytes, List.append_assoc]
    exact List.prefix_append ..
  · exact (List.nodup_append.mp hc.once).1
  · intro x m hm
    obtain ⟨rq, b, h1, h2, h3⟩ := hc.answers x m hm
    rw [hcomp] at h3
    refine ⟨rq, b, h1, h3, ?_, answered_taken h hp h1 h2, ?_⟩
    · simp only [replyPrepare] at h3
      split at h3
      · split at h3
        · cases h3; rfl
        · cases h3
      · cases h3; rfl
    · obtain ⟨pre, a, post, d1, d2, he, hr, h5, h6, h7⟩ := run_first (P := fun d => d.slots x = .responded b) acts h
        (by simp [Driver.new]) h2
      obtain ⟨i, r, rfl, hi, hx⟩ := act_responded a h6 h7 h5
      exact ⟨pre, i, post, d1, r, he, hr, hi, hx⟩
  · intro q hq x m m' h1 h2
    obtain ⟨f, hf⟩ := hd.issued p hp x m h1
    obtain ⟨f', hf'⟩ := hd.issued q hq x m' h2
    have hn : (d.log.map (·.2.1)).Nodup := by rw [hd.log]; exact List.nodup_range
    have := (List.nodup_map_inj hn hf hf' rfl)
    exact (congrArg (·.1) this).symm

/-- C42, what the requester can read: when the decompressor inverts the configured compressor, every frame sent
decompresses to exactly the bytes the application passed to `respond` for the request whose id it carries. -/
theorem C42_response_payload (D : Decompressors) (max authn) (comp : Option Compressor)
    (hinv : ∀ c, comp = some c → Spec.Inverts D c) (acts : List (Act A)) (d : Driver A)
    (h : (Driver.new max authn comp : Driver A).run D acts = .ok d) (p : Peer A) (hp : p ∈ d.conns)
    (x : Nat) (m : ReqRep.Message) (hm : (x, m) ∈ p.answers) :
    ∃ rq b, (x, rq) ∈ p.issued ∧ m.header.id = rq.header.id ∧ tryDecompress D m.header.ctype m.payload = some b ∧
      ∃ pre i post d0 r, acts = pre ++ .respond i b :: post ∧
        (Driver.new max authn comp : Driver A).run D pre = .ok d0 ∧ d0.held[i]? = some r ∧ r.handle = x := by
  obtain ⟨-, -, h3, -⟩ := C42_responses_match D max authn comp acts d h p hp
  obtain ⟨rq, b, h1, h2, h3, -, h5⟩ := h3 x m hm
  refine ⟨rq, b, h1, h3, ?_, h5⟩
  cases comp with
  | none => cases h2; rfl
  | some c =>
    simp only [replyPrepare] at h2
    cases hc : c.compress b with
    | none => rw [hc] at h2; cases h2
    | some q =>
      rw [hc] at h2; cases h2
      show tryDecompress D c.ctype.toByte q = _
      rw [(C12_tag_identifies D _).2.1]
      exact hinv c rfl _ _ hc

/-- The bytes of one request with id `id`. -/
def reqBytes (id : UInt32) (payload : Bytes) : Bytes := ReqRep.encode (ReqRep.Message.new id 0 payload)

/-- Two clients use the same id; the application answers in the other order. -/
example (D : Decompressors) :
    let c : Nat → Bytes → Conn Nat := fun u x => ⟨u, some u, ⟨[.data (reqBytes 5 x)], [], [], []⟩⟩
    let e : PEnv := ⟨[.ok 100, .ok 1], []⟩
    let acts : List (Act Nat) := [.accept (c 1 [1]), .ready 0 true, .accept (c 2 [2, 2]), .ready 0 true,
      .peer 0 e, .peer 1 e, .recv, .recv, .respond 1 [8], .respond 0 [7], .peer 0 e, .peer 0 e, .peer 0 e,
      .peer 1 e, .peer 1 e, .peer 1 e]
    ∃ d, (Driver.new none none none : Driver Nat).run D acts = .ok d ∧
      d.taken = [⟨0, 1, [1]⟩, ⟨1, 2, [2, 2]⟩] ∧ d.peers.map (·.wr.wire) = [reqBytes 5 [7], reqBytes 5 [8]] := by
  refine ⟨_, rfl, rfl, rfl⟩

/-- C43 (refuted as stated): a client has two requests outstanding; the application drops the first and
answers the second, and then the driver polls the connection, which is ready for writing. The poll finds the
dropped request, goes on to read, has nothing to read and returns `Pending`: the response is not even
queued for writing. Nothing will wake the connection up for it, since its future is already marked as woken
(`Peer.wake` does nothing). -/
theorem C43_drop_delays_response_refuted (D : Decompressors) :
    let c : Conn Nat := ⟨1, some 1, ⟨[.data (reqBytes 1 [1] ++ reqBytes 2 [2])], [], [], []⟩⟩
    let e : PEnv := ⟨[.ok 100, .ok 1], []⟩
    let acts : List (Act Nat) := [.accept c, .ready 0 true, .peer 0 e, .recv, .peer 0 e, .recv, .peer 0 e,
      .drop 0, .respond 0 [9]]
    ∃ d p, (Driver.new none none none : Driver Nat).run D acts = .ok d ∧ d.peers = [p] ∧
      d.slots 1 = .responded [9] ∧
      ∀ e', ∃ p', p.poll d.comp d.slots d.next [e'] = .ok (some (p', .pending)) ∧
        p'.answers = [] ∧ p'.egress = [] ∧ p'.wr.wire = [] ∧ p'.wr.buf = [] ∧ p'.wake 1 = p' := by
  refine ⟨_, _, rfl, rfl, rfl, fun e' => ⟨_, rfl, rfl, rfl, rfl, rfl, rfl⟩⟩

/-- C43 (partial): when the driver's poll of a connection returns `Pending` and none of the requests still
waiting on this connection has been dropped, then every request of this connection that the application has
answered has its response queued (unless it cannot be compressed), and the queue has been handed to the
connection unless the connection does not accept data. Missing: with a dropped request in between, one more
poll per dropped request is needed, and nothing triggers it (`C43_drop_delays_response_refuted`). -/
theorem C43_responses_sent_partial (D : Decompressors) (max authn comp) (acts : List (Act A)) (d : Driver A)
    (h : (Driver.new max authn comp : Driver A).run D acts = .ok d) (p : Peer A) (hp : p ∈ d.peers)
    (es : List PEnv) (p' : Peer A) (hpoll : p.poll d.comp d.slots d.next es = .ok (some (p', .pending)))
    (hnodrop : ∀ x id, (x, id) ∈ p.pend → d.slots x ≠ .dropped)
    (x : Nat) (rq : ReqRep.Message) (b : Bytes) (hx : (x, rq) ∈ p.issued) (hb : d.slots x = .responded b) :
    (replyPrepare comp rq.header.id b = none ∨
      ∃ m, replyPrepare comp rq.header.id b = some m ∧ (x, m) ∈ p'.answers) ∧
    p'.sent ++ p'.egress = p'.answers.map (·.2) ∧
    (p'.egress = [] ∨ ∃ e ∈ es, ∃ w : Writer, (w.ready e.readyAns).1 = .pending) := by
  have hd := run_reach max authn comp acts h
  have hcomp : d.comp = comp := (run_cfg acts h).2
  obtain ⟨hc, hl⟩ := hd.peers p hp
  obtain ⟨p0, e, h1, h2, h3, h4, h5, hs, h7, -⟩ := poll_last es hc hl (hd.future _ (Nat.le_refl _)) hpoll
  have hcore : PCore d.comp d.slots d.next p' := hs.core
  obtain ⟨-, hw⟩ := hs.idle rfl (fun y hy => by
    obtain ⟨z, hz, rfl⟩ := List.mem_map.mp hy
    exact hnodrop z.1 z.2 (h4 z hz))
  have hi : p'.issued = p.issued := by rw [hs.issued, h3]; simp [POut.reqs]
  refine ⟨?_, hcore.out, ?_⟩
  · rcases hcore.done x rq (hi ▸ hx) with g | g | g | ⟨b', g1, g2⟩
    · obtain ⟨⟨y, m⟩, hy, rfl⟩ := List.mem_map.mp g
      obtain ⟨rq', b', g1, g2, g3⟩ := hcore.answers y m hy
      have hnd : (p'.issued.map (·.1)).Nodup := hcore.sorted.imp (fun hlt => by omega)
      have hx' : (y, rq) ∈ p'.issued := hi ▸ hx
      have := List.nodup_map_inj hnd g1 hx' rfl
      cases this
      rw [hb] at g2; cases g2
      exact .inr ⟨m, hcomp ▸ g3, hy⟩
    · have := hw x g; rw [hb] at this; cases this
    · rw [hb] at g; cases g
    · rw [hb] at g1; cases g1
      exact .inl (hcomp ▸ g2)
  · exact (hs.blocked rfl).imp (fun g => g) (fun g => ⟨e, h7, _, g⟩)

/-- C71: when the driver's poll of a connection returns `Pending`, all responses queued on it are on the wire,
whole and in order; or the connection was offered the bytes still buffered during this poll and did not take
them all. -/
theorem C71_responses_on_the_wire (D : Decompressors) (max authn comp) (acts : List (Act A)) (d : Driver A)
    (h : (Driver.new max authn comp : Driver A).run D acts = .ok d) (p : Peer A) (hp : p ∈ d.peers)
    (es : List PEnv) (p' : Peer A) (hpoll : p.poll d.comp d.slots d.next es = .ok (some (p', .pending))) :
    (p'.egress = [] ∧ p'.wr.wire = (p'.answers.map (·.2)).flatMap ReqRep.encode) ∨
    ∃ e ∈ es, ∃ w : Writer, w.buf ≠ [] ∧ w.wire ++ w.buf = p'.wr.wire ++ p'.wr.buf ∧ (w.flush e.flushAns).1 ≠ .ok := by
  have hd := run_reach max authn comp acts h
  obtain ⟨hc, hl⟩ := hd.peers p hp
  obtain ⟨p0, e, h1, h2, h3, h4, h5, hs, h7, -⟩ := poll_last es hc hl (hd.future _ (Nat.le_refl _)) hpoll
  have hcore : PCore d.comp d.slots d.next p' := hs.core
  have hb : p0.wr.boundary = 8192 := by
    have hb1 : p.wr.boundary = 8192 := Bounded.run acts (fun p hp => by cases hp) h p hp
    rw [← hb1, ← poll_boundary es hpoll]
    exact (iter_wr h5).1.symm
  rcases iter_flushed h2 hb h5 with ⟨k1, k2⟩ | ⟨k1, k2, k3⟩
  · left
    have hg := (hs.blocked rfl).resolve_right k2
    refine ⟨hg, ?_⟩
    have ho := hcore.out
    have hby := hcore.bytes
    rw [hg, List.append_nil] at ho
    rw [k1, List.append_nil, ho] at hby
    exact hby
  · exact .inr ⟨e, h7, p0.wr, k1, k2, k3⟩

/-- The hypotheses are met: a request is answered while another one is waiting, one poll sends the response. -/
example (D : Decompressors) :
    let c : Conn Nat := ⟨1, some 1, ⟨[.data (reqBytes 1 [1] ++ reqBytes 2 [2])], [], [], []⟩⟩
    let e : PEnv := ⟨[.ok 100, .ok 1], []⟩
    let acts : List (Act Nat) := [.accept c, .ready 0 true, .peer 0 e, .recv, .peer 0 e, .recv, .peer 0 e,
      .respond 1 [8]]
    ∃ d p p', (Driver.new none none none : Driver Nat).run D acts = .ok d ∧ d.peers = [p] ∧
      p.poll d.comp d.slots d.next [e, e, e] = .ok (some (p', .pending)) ∧
      p'.wr.wire = reqBytes 2 [8] ∧ p.pend.map (·.1) = [0, 1] ∧
      d.slots 0 = .waiting ∧ d.slots 1 = .responded [8] := by
  refine ⟨_, _, _, rfl, rfl, rfl, rfl, rfl, rfl, rfl⟩

/-! ## Requests -/

theorem sorted_ext {l m : List Nat} (hl : l.Pairwise (· < ·)) (hm : m.Pairwise (· < ·))
    (h : ∀ x, x ∈ l ↔ x ∈ m) : l = m := by
  induction l generalizing m with
  | nil =>
    cases m with
    | nil => rfl
    | cons y m => have := (h y).mpr (by simp); simp at this
  | cons x l ih =>
    cases m with
    | nil => have := (h x).mp (by simp); simp at this
    | cons y m =>
      rw [List.pairwise_cons] at hl hm
      have hxy : x = y := by
        have h1 := (h x).mp (by simp)
        have h2 := (h y).mpr (by simp)
        simp only [List.mem_cons] at h1 h2
        rcases h1 with h1 | h1
        · exact h1
        · rcases h2 with h2 | h2
          · exact h2.symm
          · have := hm.1 x h1; have := hl.1 y h2; omega
      subst hxy
      rw [ih hl.2 hm.2]
      intro z
      have := h z
      simp only [List.mem_cons] at this
      constructor
      · intro hz
        rcases this.mp (.inr hz) with rfl | h1
        · have := hl.1 z hz; omega
        · exact h1
      · intro hz
        rcases this.mpr (.inr hz) with rfl | h1
        · have := hm.1 z hz; omega
        · exact h1

/-- C44 (partial): in every history, for every connection, (1) every request frame read from it whose payload
decompresses is handed to the application — with the decompressed payload and the connection's address —
unless at the time 1024 requests were waiting to be received; (2) the application receives (or will receive)
the requests of this connection in the order they were read; (3) the frames read are the first ones of those
the client's bytes encode, and all of them if the connection stays open and is polled often enough. Missing:
a request arriving while 1024 are waiting is lost (`C44_overload_refuted`). -/
theorem C44_delivered_in_order_partial (D : Decompressors) (max authn comp) (acts : List (Act A)) (d : Driver A)
    (h : (Driver.new max authn comp : Driver A).run D acts = .ok d) (p : Peer A) (hp : p ∈ d.conns) :
    (∀ x m, (x, m) ∈ p.issued →
      (∃ r ∈ d.taken ++ d.inbox, r.handle = x ∧ r.source = p.addr ∧
        tryDecompress D m.header.ctype m.payload = some r.msg) ∨
      tryDecompress D m.header.ctype m.payload = none ∨
      ∃ pre k e post d0 q, acts = pre ++ .peer k e :: post ∧
        (Driver.new max authn comp : Driver A).run D pre = .ok d0 ∧ d0.peers[k]? = some q ∧ q.uid = p.uid ∧ 1024 ≤ d0.inbox.length) ∧
    ((d.taken ++ d.inbox).map (·.handle)).filter (· ∈ p.issued.map (·.1)) =
      (p.issued.map (·.1)).filter (· ∈ (d.taken ++ d.inbox).map (·.handle)) ∧
    (∀ ms : List ReqRep.Message, (∀ m ∈ ms, m.header.size.toNat = m.payload.length) →
      ∀ y, dataOf p.input0 ++ y = ms.flatMap ReqRep.encode → p.issued.map (·.2) <+: ms ∧
        (y = [] → OpenAns p.input0 → ms.length + p.input0.length + 1 ≤ p.polls → p.issued.map (·.2) = ms)) := by
  have hd := run_reach max authn comp acts h
  have hcap : d.cap = 1024 := (run_cfg acts h).1
  have hc : PCore d.comp d.slots d.next p := by
    simp only [Driver.conns, List.mem_append] at hp
    exact hp.elim (fun hp => (hd.peers p hp).1) (hd.gone p)
  refine ⟨?_, ?_, ?_⟩
  · intro x m hx
    obtain ⟨f, hf⟩ := hd.issued p hp x m hx
    cases f with
    | undecodable => exact .inr (.inl (hd.undecodable _ _ _ hf))
    | delivered pl =>
      left
      have hm : (x, pl) ∈ deliveredOf d.log := List.mem_filterMap.mpr ⟨_, hf, rfl⟩
      rw [← hd.inbox] at hm
      obtain ⟨r, hr, he⟩ := List.mem_map.mp hm
      obtain ⟨rfl, rfl⟩ := Prod.mk.inj he
      exact ⟨r, hr, rfl, hd.source p hp _ _ hx r hr rfl, hd.delivered _ _ _ _ hf⟩
    | full =>
      right; right
      obtain ⟨pre, a, post, d1, d2, he, hr, h5, h6, h7⟩ :=
        run_first (P := fun d => (p.uid, x, m, Fate.full) ∈ d.log) acts h (by simp [Driver.new]) hf
      obtain ⟨k, e, q, rfl, hq, hu, hlen⟩ := act_full (run_reach max authn comp pre hr) a h6 h7 h5
      refine ⟨pre, k, e, post, d1, q, he, hr, hq, hu, ?_⟩
      rw [(run_cfg pre hr).1] at hlen
      exact hlen
  · have hs : ((d.taken ++ d.inbox).map (·.handle)).Pairwise (· < ·) := by
      have h1 : (d.taken ++ d.inbox).map (·.handle) = (deliveredOf d.log).map (·.1) := by
        rw [← hd.inbox, List.map_map]; rfl
      have h2 := deliveredOf_sub d.log
      rw [hd.log] at h2
      rw [h1]
      exact List.Pairwise.sublist h2 List.pairwise_lt_range
    apply sorted_ext
    · exact hs.sublist List.filter_sublist
    · exact hc.sorted.sublist List.filter_sublist
    · intro x
      simp only [List.mem_filter, decide_eq_true_eq]
      exact And.comm
  · intro ms hms y hy
    have hdr := drains_encoded ReqRep.codec ReqRep.encode ReqRep.decode_nil ReqRep.Message.WF
      ReqRep.decode_encode ms hms
    refine ⟨hc.seen.prefix ReqRep.inc (y := y) (hy ▸ hdr), ?_⟩
    intro h0 ho hn
    subst h0
    rw [List.append_nil] at hy
    exact hc.seen.complete ReqRep.inc ReqRep.decode_nil ho (hy ▸ hdr) hn

/-- The request used below. -/
def floodReq : Bytes := reqBytes 0 []

/-- The state after `k` requests of a client that sends `n`, with an application that receives none. -/
def Flooded (n k : Nat) (d : Driver Nat) : Prop :=
  ∃ p, d.peers = [p] ∧ p.rd.st = .header ∧ p.rd.buf = [] ∧ p.rd.eof = false ∧ p.rd.errored = false ∧
    p.egress = [] ∧ p.shouldFlush = false ∧ p.wr = {} ∧ p.input = List.replicate (n - k) (.data floodReq) ∧
    (∀ h, d.slots h = .waiting) ∧ d.inbox.length = k ∧ d.taken = [] ∧ d.cap = 1024 ∧ d.next = k

theorem popQueue_waiting (slots : Nat → Rep.Slot) (pend : List (Nat × UInt32)) (q : List Nat)
    (h : ∀ x, slots x = .waiting) : popQueue slots pend q = (none, pend, []) := by
  induction q with
  | nil => rfl
  | cons x q ih => simp only [popQueue, h x]; exact ih

theorem floodRead (r : Reader ReqRep.State) (h1 : r.st = .header) (h2 : r.buf = []) (h3 : r.eof = false)
    (h4 : r.errored = false) (n : Nat) :
    ∃ r', r.pollNext ReqRep.codec (List.replicate (n + 1) (.data floodReq)) =
      .ok (.item (ReqRep.Message.new 0 0 []), r', List.replicate n (.data floodReq)) ∧
      r'.st = .header ∧ r'.buf = [] ∧ r'.eof = false ∧ r'.errored = false := by
  obtain ⟨st, buf, eof, readable, errored⟩ := r
  simp only at h1 h2 h3 h4
  subst h1 h2 h3 h4
  rw [List.replicate_succ]
  cases readable <;> cases n with
  | zero => exact ⟨_, rfl, rfl, rfl, rfl, rfl⟩
  | succ n => exact ⟨_, rfl, rfl, rfl, rfl, rfl⟩

theorem floodIter (D : Decompressors) {n k : Nat} {d : Driver Nat} (hf : Flooded n k d) (hk : k < n) :
    ∃ p p', d.peers = [p] ∧ p.iter d.comp d.slots d.next ⟨[], []⟩ = .ok (p', .request k (ReqRep.Message.new 0 0 [])) ∧
      p'.rd.st = .header ∧ p'.rd.buf = [] ∧ p'.rd.eof = false ∧ p'.rd.errored = false ∧
      p'.egress = [] ∧ p'.shouldFlush = false ∧ p'.wr = {} ∧ p'.input = List.replicate (n - (k + 1)) (.data floodReq) ∧
      (k, ReqRep.Message.new 0 0 []) ∈ p'.issued := by
  obtain ⟨p, hp, h1, h2, h3, h4, h5, h6, h7, h8, h9, h10, h11, h12, h13⟩ := hf
  obtain ⟨m, hm⟩ : ∃ m, n - k = m + 1 := ⟨n - k - 1, by omega⟩
  have hm' : n - (k + 1) = m := by omega
  obtain ⟨r', hr, g1, g2, g3, g4⟩ := floodRead p.rd h1 h2 h3 h4 m
  rw [hm] at h8
  refine ⟨p, { p with pend := p.pend ++ [(k, 0)], queue := [k], rd := r', input := List.replicate m (.data floodReq), polls := p.polls + 1, issued := p.issued ++ [(k, ReqRep.Message.new 0 0 [])] },
    hp, ?_, g1, g2, g3, g4, ?_⟩
  · simp only [Peer.iter, Peer.flushStep, h6, Bool.false_eq_true, if_false, h7, Writer.ready, h5]
    simp only [show ¬ (8192 ≤ ([] : Bytes).length) by simp, if_false, Peer.completeStep, popQueue_waiting _ _ _ h9, Peer.readStep, h8, hr,
      R.bind_ok, R.pure_eq, h13]
    rfl
  · exact ⟨h5, h6, h7, by rw [hm'], by simp⟩

theorem flood (D : Decompressors) (n : Nat) (k : Nat) (hk : k ≤ n) (h : k ≤ 1024) :
    ∃ d, (Driver.new none none none : Driver Nat).run D
      (.accept ⟨0, some 0, ⟨List.replicate n (.data floodReq), [], [], []⟩⟩ :: .ready 0 true ::
        List.replicate k (.peer 0 ⟨[], []⟩)) = .ok d ∧ Flooded n k d := by
  induction k with
  | zero =>
    refine ⟨_, rfl, _, rfl, rfl, rfl, rfl, rfl, rfl, rfl, rfl, rfl, fun _ => rfl, rfl, rfl, rfl, rfl⟩
  | succ k ih =>
    obtain ⟨d, hr, hf⟩ := ih (by omega) (by omega)
    obtain ⟨p, p', hp, hi, g1, g2, g3, g4, g5, g6, g7, g8, -⟩ := floodIter D hf (by omega)
    obtain ⟨q, hq, h1, h2, h3, h4, h5, h6, h7, h8, h9, h10, h11, h12, h13⟩ := hf
    rw [hp] at hq; cases hq
    rw [List.replicate_succ', ← List.cons_append, ← List.cons_append, run_append, hr]
    simp only [R.bind_ok, Driver.run, Driver.act, Driver.stepPeer, hp, List.getElem?_cons_zero, hi, R.pure_eq]
    refine ⟨_, rfl, p', ?_⟩
    simp only [Driver.onRequest, tryDecompress, ReqRep.Message.new, CType.ofByte, if_true]
    rw [if_pos (by simp only [h10, h12]; omega)]
    refine ⟨rfl, g1, g2, g3, g4, g5, g6, g7, g8, h9, ?_, h11, h12, ?_⟩
    · simp [h10]
    · simp [h13]

/-- C44 (refuted as stated): a client sends 1025 well-formed requests before the application receives one; the
last one is read by the socket and never handed to the application. -/
theorem C44_overload_refuted (D : Decompressors) :
    ∃ d p m, (Driver.new none none none : Driver Nat).run D
      (.accept ⟨0, some 0, ⟨List.replicate 1025 (.data (reqBytes 0 [])), [], [], []⟩⟩ :: .ready 0 true ::
        List.replicate 1025 (.peer 0 ⟨[], []⟩)) = .ok d ∧ p ∈ d.conns ∧ (1024, m) ∈ p.issued ∧
      tryDecompress D m.header.ctype m.payload = some [] ∧ d.slots 1024 = .dropped ∧
      1024 ∉ (d.taken ++ d.inbox).map (·.handle) := by
  obtain ⟨d, hr, hf⟩ := flood D 1025 1024 (by omega) (by omega)
  obtain ⟨p, p', hp, hi, -, -, -, -, -, -, -, -, hm⟩ := floodIter D hf (by omega)
  obtain ⟨q, hq, h1, h2, h3, h4, h5, h6, h7, h8, h9, h10, h11, h12, h13⟩ := hf
  rw [hp] at hq; cases hq
  rw [show List.replicate 1025 (Act.peer 0 ⟨[], []⟩ : Act Nat) = List.replicate 1024 (.peer 0 ⟨[], []⟩) ++ [.peer 0 ⟨[], []⟩]
    from List.replicate_succ', ← List.cons_append, ← List.cons_append, run_append, show reqBytes 0 [] = floodReq from rfl, hr]
  simp only [R.bind_ok, Driver.run, Driver.act, Driver.stepPeer, hp, List.getElem?_cons_zero, hi, R.pure_eq]
  have hd := run_reach none none none _ hr
  refine ⟨_, p'.wake 1024, ReqRep.Message.new 0 0 [], rfl, ?_⟩
  simp only [Driver.onRequest, tryDecompress, ReqRep.Message.new, CType.ofByte, if_true]
  rw [if_neg (by simp only [h10, h12]; omega)]
  refine ⟨?_, ?_, trivial, ?_, ?_⟩
  · simp [Driver.conns, Driver.complete]
  · rw [(wake_fields p' 1024).2.2.1]; exact hm
  · simp [Driver.complete]
  · intro hmem
    have := hd.handles.2 1024 hmem
    omega

/-- C45 (partial): in every history a request whose payload cannot be decompressed is never handed to the
application and never answered on any connection. Missing: promptness of other responses on the same
connection (`C45_delays_response_refuted`). -/
theorem C45_undecodable_dropped_partial (D : Decompressors) (max authn comp) (acts : List (Act A)) (d : Driver A)
    (h : (Driver.new max authn comp : Driver A).run D acts = .ok d) (p : Peer A) (hp : p ∈ d.conns)
    (x : Nat) (m : ReqRep.Message) (hx : (x, m) ∈ p.issued)
    (hbad : tryDecompress D m.header.ctype m.payload = none) :
    (∀ r ∈ d.taken ++ d.inbox, r.handle ≠ x) ∧ ∀ q ∈ d.conns, x ∉ q.answers.map (·.1) := by
  have hd := run_reach max authn comp acts h
  obtain ⟨f, hf⟩ := hd.issued p hp x m hx
  have hn : (d.log.map (·.2.1)).Nodup := by rw [hd.log]; exact List.nodup_range
  have hfu : f = .undecodable := by
    cases f with
    | undecodable => rfl
    | delivered pl => have := hd.delivered _ _ _ _ hf; rw [hbad] at this; cases this
    | full => have := hd.full _ _ _ hf; rw [hbad] at this; cases this
  subst hfu
  have hsl : d.slots x = .dropped := by
    rcases hd.dropped _ _ _ _ hf (by intro; simp) with h1 | h1
    · exact h1
    · cases h1
  constructor
  · intro r hr he
    have : (r.handle, r.msg) ∈ deliveredOf d.log := by
      rw [← hd.inbox]; exact List.mem_map.mpr ⟨r, hr, rfl⟩
    obtain ⟨y, hy, hye⟩ := List.mem_filterMap.mp this
    obtain ⟨u, z, m', f⟩ := y
    cases f with
    | undecodable => cases hye
    | full => cases hye
    | delivered pl =>
      cases hye
      have := List.nodup_map_inj hn hy hf he
      cases this
  · intro q hq hm
    have hcq : PCore d.comp d.slots d.next q := by
      simp only [Driver.conns, List.mem_append] at hq
      exact hq.elim (fun hq => (hd.peers q hq).1) (hd.gone q)
    obtain ⟨⟨y, m'⟩, hy, rfl⟩ := List.mem_map.mp hm
    obtain ⟨rq, b, -, h2, -⟩ := hcq.answers y m' hy
    rw [hsl] at h2; cases h2

/-- C45: the moment such a request is read, nothing else changes: the channel to the application, the requests
it holds, the responses of all other requests, the counters and the other connections are as before; on its
own connection only this request is added (and marked as dropped). -/
theorem C45_nothing_else_changes (D : Decompressors) (max authn comp) (acts : List (Act A)) (d d' : Driver A)
    (h : (Driver.new max authn comp : Driver A).run D acts = .ok d)
    (k : Nat) (e : PEnv) (p p' : Peer A) (x : Nat) (m : ReqRep.Message)
    (hk : d.peers[k]? = some p) (hi : p.iter d.comp d.slots d.next e = .ok (p', .request x m))
    (hbad : tryDecompress D m.header.ctype m.payload = none) (ha : d.act D (.peer k e) = .ok d') :
    d'.inbox = d.inbox ∧ d'.held = d.held ∧ d'.taken = d.taken ∧ (∀ y ≠ x, d'.slots y = d.slots y) ∧
    d'.active = d.active ∧ d'.bytesRx = d.bytesRx ∧ d'.bytesTx = d.bytesTx ∧ d'.gone = d.gone ∧
    (∀ j q, j ≠ k → d.peers[j]? = some q → d'.peers[j]? = some (q.wake x) ∧ (x ∉ q.pend.map (·.1) → q.wake x = q)) ∧
    p'.issued = p.issued ++ [(x, m)] ∧ p'.answers = p.answers ∧ p'.sent = p.sent := by
  have hd := run_reach max authn comp acts h
  obtain ⟨hc, hl⟩ := hd.peers p (List.mem_of_getElem? hk)
  obtain ⟨q', o, hit, hs⟩ := iter_spec hc hl (hd.future _ (Nat.le_refl _)) e
  rw [hi] at hit
  cases hit
  simp only [Driver.act, Driver.stepPeer, hk, hi, R.bind_ok, R.pure_eq, Driver.onRequest, hbad] at ha
  cases ha
  refine ⟨rfl, rfl, rfl, ?_, rfl, rfl, rfl, rfl, ?_, hs.issued, hs.answers (by simp), by simpa [POut.sents] using hs.sent⟩
  · intro y hy
    simp [Driver.complete, hy]
  · intro j q hj hq
    refine ⟨?_, ?_⟩
    · simp only [Driver.complete, List.getElem?_map]
      rw [List.getElem?_set_ne (by omega), hq]
      rfl
    · intro hn
      unfold Peer.wake
      rw [if_neg (fun hh => hn hh.1)]

/-- C45 (refuted as stated, promptness): a client's first request is answered just after its second one turned
out to be undecodable. The connection's next poll finds the dropped second request, has nothing to read and
returns `Pending` with the response not sent, and nothing will wake it up (as in
`C43_drop_delays_response_refuted`). -/
theorem C45_delays_response_refuted (D : Decompressors) :
    let c : Conn Nat := ⟨1, some 1, ⟨[.data (reqBytes 1 [1]), .pending,
      .data (ReqRep.encode (ReqRep.Message.new 2 77 [2]))], [], [], []⟩⟩
    let e : PEnv := ⟨[.ok 100, .ok 1], []⟩
    let acts : List (Act Nat) := [.accept c, .ready 0 true, .peer 0 e, .recv, .peer 0 e, .peer 0 e, .respond 0 [9]]
    ∃ d p, (Driver.new none none none : Driver Nat).run D acts = .ok d ∧ d.peers = [p] ∧
      d.slots 0 = .responded [9] ∧
      ∀ e', ∃ p', p.poll d.comp d.slots d.next [e'] = .ok (some (p', .pending)) ∧
        p'.answers = [] ∧ p'.egress = [] ∧ p'.wr.wire = [] ∧ p'.wr.buf = [] ∧ p'.wake 0 = p' := by
  refine ⟨_, _, rfl, rfl, rfl, fun e' => ⟨_, rfl, rfl, rfl, rfl, rfl, rfl⟩⟩

/-- Two clients: the first sends an undecodable request between two good ones, the second a good one. -/
example (D : Decompressors) :
    let c1 : Conn Nat := ⟨1, some 1, ⟨[.data (reqBytes 1 [1] ++ ReqRep.encode (ReqRep.Message.new 2 77 [2]) ++ reqBytes 3 [3])], [], [], []⟩⟩
    let c2 : Conn Nat := ⟨2, some 2, ⟨[.data (reqBytes 4 [4])], [], [], []⟩⟩
    let e : PEnv := ⟨[.ok 100, .ok 1], []⟩
    let acts : List (Act Nat) := [.accept c1, .ready 0 true, .accept c2, .ready 0 true, .peer 0 e, .peer 0 e, .peer 1 e,
      .peer 0 e, .recv]
    ∃ d p q, (Driver.new none none none : Driver Nat).run D acts = .ok d ∧ d.peers = [p, q] ∧
      d.taken ++ d.inbox = [⟨0, 1, [1]⟩, ⟨2, 2, [4]⟩, ⟨3, 1, [3]⟩] ∧ p.issued.map (·.1) = [0, 1, 3] ∧
      d.slots 1 = .dropped ∧ tryDecompress D 77 [2] = none := by
  refine ⟨_, _, _, rfl, rfl, rfl, rfl, rfl, rfl⟩

/-! ## Statistics -/

theorem encode_length (m : ReqRep.Message) : (ReqRep.encode m).length = 10 + m.payload.length := by
  simp [ReqRep.encode]; omega

theorem txOf_frames {D : Decompressors} {max authn comp} {acts : List (Act A)} {d : Driver A}
    (h : (Driver.new max authn comp : Driver A).run D acts = .ok d)
    (hsmall : ∀ p ∈ d.conns, ∀ m ∈ p.sent, m.payload.length < 2 ^ 32) :
    d.bytesTx + (d.conns.map (·.sent.length)).sum = (d.conns.map fun p => (p.wr.wire ++ p.wr.buf).length).sum := by
  have hd := run_reach max authn comp acts h
  rw [(run_sinv acts (new_inv D max authn comp) (new_sinv ..) h).tx]
  have hall : ∀ p ∈ d.conns, PCore d.comp d.slots d.next p := fun p hp => by
    simp only [Driver.conns, List.mem_append] at hp
    exact hp.elim (fun hp => (hd.peers p hp).1) (hd.gone p)
  generalize d.conns = l at hsmall hall
  induction l with
  | nil => rfl
  | cons p l ih =>
    have ih := ih (fun q hq => hsmall q (by simp [hq])) (fun q hq => hall q (by simp [hq]))
    have hp := hall p (by simp)
    have hs : ∀ m ∈ p.sent, m.size = 9 + m.payload.length := by
      intro m hm
      have hlt := hsmall p (by simp) m hm
      have hm' : m ∈ p.answers.map (·.2) := by rw [← hp.out]; simp [hm]
      obtain ⟨⟨x, m'⟩, hx, rfl⟩ := List.mem_map.mp hm'
      obtain ⟨rq, b, -, -, hr⟩ := hp.answers x m' hx
      simp only [replyPrepare] at hr
      have : m'.header.size = UInt32.ofNat m'.payload.length := by
        split at hr
        · split at hr
          · cases hr; rfl
          · cases hr
        · cases hr; rfl
      simp only [ReqRep.Message.size, ReqRep.Header.len, this, UInt32.toNat_ofNat']
      simp only at hlt
      omega
    have key : ∀ l : List ReqRep.Message, (∀ m ∈ l, m.size = 9 + m.payload.length) →
        (l.map ReqRep.Message.size).sum + l.length = (l.flatMap ReqRep.encode).length := by
      intro l hl
      induction l with
      | nil => rfl
      | cons m l ih =>
        have := hl m (by simp)
        have := ih (fun x hx => hl x (by simp [hx]))
        simp only [List.map_cons, List.sum_cons, List.length_cons, List.flatMap_cons, List.length_append, encode_length]
        omega
    have hk := key p.sent hs
    rw [← hp.bytes] at hk
    simp only [txOf, List.map_cons, List.sum_cons] at ih ⊢
    omega

/-- C41 for the reply socket (partial): in every history `bytes_tx` is the number of bytes handed to the
connections minus one for every frame (so it never exceeds it), and `bytes_rx` is the sum of the payload sizes
(as received) of the request frames that could be decompressed. Missing: `bytes_tx` is one short per frame
and `bytes_rx` leaves out the frames' headers (`C41_reply_bytes_refuted`). -/
theorem C41_reply_bytes_partial (D : Decompressors) (max authn comp) (acts : List (Act A)) (d : Driver A)
    (h : (Driver.new max authn comp : Driver A).run D acts = .ok d)
    (hsmall : ∀ p ∈ d.conns, ∀ m ∈ p.sent, m.payload.length < 2 ^ 32) :
    d.bytesTx + (d.conns.map (·.sent.length)).sum = (d.conns.map fun p => (p.wr.wire ++ p.wr.buf).length).sum ∧
    d.bytesRx = (d.log.map fun x =>
      if (tryDecompress D x.2.2.1.header.ctype x.2.2.1.payload).isSome then x.2.2.1.payload.length else 0).sum := by
  refine ⟨txOf_frames h hsmall, ?_⟩
  have hd := run_reach max authn comp acts h
  rw [(run_sinv acts (new_inv D max authn comp) (new_sinv ..) h).rx]
  unfold rxOf
  congr 1
  apply List.map_congr_left
  rintro ⟨u, x, m, f⟩ hm
  cases f with
  | undecodable => simp [hd.undecodable _ _ _ hm]
  | delivered pl => simp [hd.delivered _ _ _ _ hm]
  | full => simp [hd.full _ _ _ hm]

/-- C41 (refuted as stated): a request of 11 bytes is answered with a frame of 12 bytes; the counters say 1
and 11. -/
theorem C41_reply_bytes_refuted (D : Decompressors) :
    let c : Conn Nat := ⟨1, some 1, ⟨[.data (reqBytes 1 [1])], [], [], []⟩⟩
    let e : PEnv := ⟨[.ok 100, .ok 1], []⟩
    let acts : List (Act Nat) := [.accept c, .ready 0 true, .peer 0 e, .recv, .respond 0 [7, 7], .peer 0 e, .peer 0 e, .peer 0 e]
    ∃ d p, (Driver.new none none none : Driver Nat).run D acts = .ok d ∧ d.peers = [p] ∧
      (dataOf p.input0).length = 11 ∧ d.bytesRx = 1 ∧ p.wr.wire.length = 12 ∧ d.bytesTx = 11 := by
  refine ⟨_, _, rfl, rfl, rfl, rfl, rfl, rfl⟩

end MsgRs.Props
