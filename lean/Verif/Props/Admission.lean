import Verif.Proofs.PubOrigin
import Verif.Proofs.PubDriver
/-!
# Properties C27, C29, C30, C62: admitting and authenticating clients

A history of the publisher driver is a list of `Pub.DAct`: iterations of its loop (each with what the
listener, the accept futures and the authentication tasks report) and ends of sessions.
-/
namespace MsgRs.Props
open MsgRs

/-! ## The server's handshake -/

theorem reject_spec (e : HsEnv) :
    match hsReject e with
    | .waiting w | .failed w => w <+: [1, 0]
    | .accepted .. | .panicked => False := by
  have hfr : (Auth.encode .ack .reject).2 = [1, 0] := rfl
  unfold hsReject
  rw [hfr]
  simp only
  rcases h1 : ({} : Writer).sendAwait [1, 0] e.sendAns with ⟨o, w⟩
  have hs := sendAwait_fresh [1, 0] e.sendAns h1
  cases o with
  | pending => exact ⟨_, hs.1⟩
  | err => exact ⟨_, hs.1⟩
  | ok =>
    obtain ⟨hw, hb⟩ := hs.2 rfl
    simp only
    rcases h2 : w.flushAwait e.flushAns with ⟨o2, w2⟩
    obtain ⟨hw2, hb2⟩ := flushAwait_empty w hb _ h2
    cases o2 with
    | pending => exact ⟨[], by simp [hw2, hw]⟩
    | err => exact ⟨[], by simp [hw2, hw]⟩
    | ok =>
      simp only
      rcases h3 : w2.flushAwait e.closeAns with ⟨o3, w3⟩
      obtain ⟨hw3, -⟩ := flushAwait_empty w2 hb2 _ h3
      cases o3 <;> exact ⟨[], by simp [hw3, hw2, hw]⟩

/-- C30, the handshake: for every authenticator and every behaviour of the connection, the connection is
accepted only if the bytes read from it start with a complete authentication message whose token the
authenticator accepts, and then exactly an Ack was written; a client whose token is not accepted is written
nothing but (a prefix of) a Reject; before a complete token arrived nothing is written. -/
theorem C30_handshake (authn : Bytes → Bool) (e : HsEnv) :
    match hsServer authn e with
    | .accepted id wire rest lost =>
      authn id = true ∧ wire = [1, 1] ∧ id.length < 2 ^ 32 ∧
        ∃ pre, e.reads = pre ++ rest ∧ dataOf pre = Spec.authBytes id ++ lost
    | .waiting wire | .failed wire =>
      wire = [] ∨ ∃ id pre rest lost, id.length < 2 ^ 32 ∧ e.reads = pre ++ rest ∧ dataOf pre = Spec.authBytes id ++ lost ∧
        (if authn id then wire <+: [1, 1] else wire <+: [1, 0])
    | .panicked => True := by
  unfold hsServer
  rcases h0 : (Reader.new Auth.serverCodec).await Auth.serverCodec e.reads with ⟨o, rd, rest⟩ | _
  case panic => trivial
  cases o with
  | pending => exact .inl rfl
  | ended => exact .inl rfl
  | err _ => exact .inl rfl
  | item m =>
    obtain ⟨id, pre, rfl, hp, hd, hlt⟩ := server_await h0
    simp only
    cases ha : authn id with
    | false =>
      have hr := reject_spec e
      simp only [Bool.false_eq_true, if_false]
      split <;> rename_i hh <;> rw [hh] at hr
      · exact hr.elim
      · exact .inr ⟨id, pre, rest, rd.buf, hlt, hp, hd, by rw [ha]; exact hr⟩
      · exact .inr ⟨id, pre, rest, rd.buf, hlt, hp, hd, by rw [ha]; exact hr⟩
      · trivial
    | true =>
      have hfr : (Auth.encode rd.st .ack).2 = [1, 1] := rfl
      rw [hfr]
      simp only [if_true]
      rcases h1 : ({} : Writer).sendAwait [1, 1] e.sendAns with ⟨o, w⟩
      have hs := sendAwait_fresh [1, 1] e.sendAns h1
      cases o with
      | pending => exact .inr ⟨id, pre, rest, rd.buf, hlt, hp, hd, by rw [ha]; exact ⟨_, hs.1⟩⟩
      | err => exact .inr ⟨id, pre, rest, rd.buf, hlt, hp, hd, by rw [ha]; exact ⟨_, hs.1⟩⟩
      | ok =>
        obtain ⟨hw, hb⟩ := hs.2 rfl
        simp only
        rcases h2 : w.flushAwait e.flushAns with ⟨o2, w2⟩
        obtain ⟨hw2, hb2⟩ := flushAwait_empty w hb _ h2
        cases o2 with
        | pending => exact .inr ⟨id, pre, rest, rd.buf, hlt, hp, hd, by rw [ha]; exact ⟨[], by simp [hw2, hw]⟩⟩
        | err => exact .inr ⟨id, pre, rest, rd.buf, hlt, hp, hd, by rw [ha]; exact ⟨[], by simp [hw2, hw]⟩⟩
        | ok => exact ⟨ha, by rw [hw2, hw], hlt, pre, hp, hd⟩

/-- C30, the publisher: with an authenticator, in every history every connection being served was reported by
the listener and had sent an accepted token, and the session reads only what came after it. -/
theorem C30_only_authenticated_served (max : Option Nat) (f : Bytes → Bool) (acts : List (Pub.DAct A))
    (c : Conn A) (rest : List ReadAns)
    (h : (c, rest) ∈ (({ max, authn := some f } : Pub.Driver A).run acts).sessions) :
    (∃ e, .iter e ∈ acts ∧ e.accept = some c) ∧
    ∃ id pre lost, f id = true ∧ c.hs.reads = pre ++ rest ∧ dataOf pre = Spec.authBytes id ++ lost := by
  obtain ⟨h1, id, wire, lost, ha⟩ := Pub.run_origin max (some f) acts c rest h
  have := C30_handshake f c.hs
  rw [ha] at this
  obtain ⟨hf, -, -, pre, hp, hd⟩ := this
  exact ⟨h1, id, pre, lost, hf, hp, hd⟩

theorem await_pendings (c : Codec σ ε μ) (s0 : σ) (k : Nat) (as : List ReadAns) :
    ({ st := s0 } : Reader σ).await c (List.replicate k .pending ++ as) = ({ st := s0 } : Reader σ).await c as := by
  induction k with
  | zero => rfl
  | succ k ih =>
    rw [List.replicate_succ, List.cons_append]
    conv => lhs; unfold Reader.await
    simp only [Reader.frame, Bool.false_eq_true, if_false, R.bind_ok]
    exact ih

/-- A whole authentication frame in one read. -/
theorem await_frame (k : Nat) (id x : Bytes) (hid : id.length < 2 ^ 32) (as : List ReadAns) :
    ∃ r, (Reader.new Auth.serverCodec).await Auth.serverCodec
      (List.replicate k .pending ++ .data (Spec.authBytes id ++ x) :: as) = .ok (.item (.auth id), r, as) ∧
      r.buf = x ∧ r.st = .ack := by
  rw [Reader.new, await_pendings]
  unfold Reader.await
  simp only [Reader.frame, Bool.false_eq_true, if_false, R.bind_ok, Spec.authBytes, List.cons_append,
    List.nil_append]
  have hd' : Auth.serverCodec.decode Auth.serverCodec.init (1 :: (putU32 (UInt32.ofNat id.length) ++ (id ++ x)))
      = .ok (.item (.auth id), .ack, x) := by
    have hd := Auth.decodeServer_prefix id (1 :: (putU32 (UInt32.ofNat id.length) ++ (id ++ x))) [] x hid
      (by simp [Auth.WIRE_ID])
    have hlen : (1 :: (putU32 (UInt32.ofNat id.length) ++ (id ++ x))).length = id.length + 5 + x.length := by
      simp; omega
    rw [if_neg (by omega), if_neg (by omega), if_neg (by omega), if_neg (by omega)] at hd
    refine hd.trans ?_
    have : id.length + 5 = (1 :: (putU32 (UInt32.ofNat id.length) ++ id)).length := by simp; omega
    rw [this]
    have hsplit : (1 :: (putU32 (UInt32.ofNat id.length) ++ (id ++ x)) : Bytes)
        = (1 :: (putU32 (UInt32.ofNat id.length) ++ id)) ++ x := by simp
    rw [hsplit, List.drop_left]
  cases as with
  | nil =>
    simp only [Reader.await, Reader.frame, Bool.false_eq_true, if_false, if_true, List.append_assoc, hd', R.bind_ok, R.pure_eq]
    exact ⟨_, rfl, rfl, rfl⟩
  | cons a as =>
    simp only [Reader.await, Reader.frame, Bool.false_eq_true, if_false, if_true, List.append_assoc, hd', R.bind_ok, R.pure_eq]
    exact ⟨_, rfl, rfl, rfl⟩

/-- C30: a client that sends a complete token which is not accepted, on a connection that takes the answer,
is sent exactly the Reject and the handshake fails; with an accepted token it is sent exactly the Ack and
admitted, and the session continues with the following reads. -/
theorem C30_verdict (authn : Bytes → Bool) (k : Nat) (id : Bytes) (hid : id.length < 2 ^ 32)
    (rest : List ReadAns) (e : HsEnv)
    (hreads : e.reads = List.replicate k .pending ++ .data (Spec.authBytes id) :: rest)
    (hs : ∃ as, e.sendAns = .ok 2 :: .ok 1 :: as) (hfl : ∃ as, e.flushAns = .ok 1 :: as)
    (hcl : ∃ as, e.closeAns = .ok 1 :: as) :
    hsServer authn e = if authn id then .accepted id [1, 1] rest [] else .failed [1, 0] := by
  obtain ⟨r, h1, h2, h3⟩ := await_frame k id [] hid rest
  rw [List.append_nil] at h1
  obtain ⟨as1, hs⟩ := hs
  obtain ⟨as2, hfl⟩ := hfl
  obtain ⟨as3, hcl⟩ := hcl
  unfold hsServer
  rw [hreads, h1]
  simp only
  cases authn id with
  | true =>
    rw [hs, hfl, h2]
    simp [Writer.sendAwait, Writer.flushAwait, Writer.flush, Writer.send, Auth.encode, Auth.WIRE_ID]
  | false =>
    simp [hsReject, hs, hfl, hcl, Writer.sendAwait, Writer.flushAwait, Writer.flush, Writer.send, Auth.encode, Auth.WIRE_ID]

example : hsServer (· == [7]) ⟨[.pending, .data (Spec.authBytes [7]), .data [9]], [.ok 2, .ok 1], [.ok 1], [.ok 1]⟩
    = .accepted [7] [1, 1] [.data [9]] [] :=
  (C30_verdict (· == [7]) 1 [7] (by decide) [.data [9]] _ rfl ⟨_, rfl⟩ ⟨_, rfl⟩ ⟨_, rfl⟩).trans rfl

example : hsServer (· == [7]) ⟨[.pending, .data (Spec.authBytes [8]), .data [9]], [.ok 2, .ok 1], [.ok 1], [.ok 1]⟩
    = .failed [1, 0] :=
  (C30_verdict (· == [7]) 1 [8] (by decide) [.data [9]] _ rfl ⟨_, rfl⟩ ⟨_, rfl⟩ ⟨_, rfl⟩).trans rfl

/-! ## C62 -/

theorem authBytes_prefix {id id0 lost : Bytes} (h0 : id0.length < 2 ^ 32)
    (h : Spec.authBytes id ++ lost <+: Spec.authBytes id0) : id = id0 ∧ lost = [] := by
  obtain ⟨y, hy⟩ := h
  simp only [Spec.authBytes, List.cons_append, List.cons.injEq, true_and, List.append_assoc] at hy
  have hle : id.length < 2 ^ 32 := by
    have := congrArg List.length hy
    simp at this
    omega
  have hl : (putU32 (UInt32.ofNat id.length)).length = (putU32 (UInt32.ofNat id0.length)).length := by simp
  obtain ⟨ha, hb⟩ := List.append_inj hy hl
  have hlen : id.length = id0.length := by
    have h1 := Auth.idLen_put id [] hle
    have h2 := Auth.idLen_put id0 [] h0
    rw [ha] at h1
    exact h1.symm.trans h2
  have : lost ++ y = [] := by
    have h1 := congrArg List.length hb
    simp only [List.length_append] at h1
    apply List.eq_nil_of_length_eq_zero
    rw [List.length_append]; omega
  simp only [List.append_eq_nil_iff] at this
  obtain ⟨rfl, rfl⟩ := this
  simpa using hb

/-- C62, server side: a client with token `id0` follows the protocol if it sends nothing beyond its
authentication message before it has been sent the Ack, i.e. if the reads the handshake used up (`pre`)
held at most that message. Then the handshake read exactly this message, the token is the client's, no
received byte is thrown away, and the data codec gets exactly the rest of the stream. -/
theorem C62_server_switch (authn : Bytes → Bool) (e : HsEnv) (id wire : Bytes) (rest : List ReadAns)
    (lost : Bytes) (hacc : hsServer authn e = .accepted id wire rest lost)
    (id0 : Bytes) (hid0 : id0.length < 2 ^ 32)
    (hfollow : ∀ pre, e.reads = pre ++ rest → dataOf pre <+: Spec.authBytes id0) :
    id = id0 ∧ lost = [] ∧ dataOf e.reads = Spec.authBytes id0 ++ dataOf rest ∧
      ∃ pre, e.reads = pre ++ rest ∧ dataOf pre = Spec.authBytes id0 := by
  have h := C30_handshake authn e
  rw [hacc] at h
  obtain ⟨-, -, -, pre, hp, hd⟩ := h
  have h1 := hfollow pre hp
  rw [hd] at h1
  obtain ⟨rfl, rfl⟩ := authBytes_prefix hid0 h1
  rw [List.append_nil] at hd
  refine ⟨rfl, rfl, ?_, pre, hp, hd⟩
  rw [hp, dataOf_append, hd]

/-- C62 for the publisher: in every history, if the client of a session (with token `id0`) followed the
protocol, the session's codec reads exactly what the client sent after its authentication message. -/
theorem C62_publisher (max : Option Nat) (f : Bytes → Bool) (acts : List (Pub.DAct A))
    (c : Conn A) (rest : List ReadAns)
    (h : (c, rest) ∈ (({ max, authn := some f } : Pub.Driver A).run acts).sessions)
    (id0 : Bytes) (hid0 : id0.length < 2 ^ 32)
    (hfollow : ∀ pre, c.hs.reads = pre ++ rest → dataOf pre <+: Spec.authBytes id0) :
    f id0 = true ∧ dataOf c.hs.reads = Spec.authBytes id0 ++ dataOf rest := by
  obtain ⟨h1, id, wire, lost, ha⟩ := Pub.run_origin max (some f) acts c rest h
  obtain ⟨rfl, -, h3, -⟩ := C62_server_switch f c.hs id wire rest lost ha id0 hid0 hfollow
  have := C30_handshake f c.hs
  rw [ha] at this
  exact ⟨this.1, h3⟩

/-- C62, without authenticator: the session's codec reads everything the connection sends. -/
theorem C62_publisher_no_auth (max : Option Nat) (acts : List (Pub.DAct A)) (c : Conn A) (rest : List ReadAns)
    (h : (c, rest) ∈ (({ max, authn := none } : Pub.Driver A).run acts).sessions) :
    (∃ e, .iter e ∈ acts ∧ e.accept = some c) ∧ rest = c.hs.reads :=
  Pub.run_origin max none acts c rest h

/-- A history with a session whose client follows the protocol. -/
example :
    let c : Conn Nat := ⟨1, some 1, ⟨[.data [1, 0], .data [0, 0, 1, 7], .data [5, 6]], [.ok 2, .ok 1], [.ok 1], [.ok 1]⟩⟩
    (c, [.data [5, 6]]) ∈ (({ max := none, authn := some (· == [7]) } : Pub.Driver Nat).run
        [.iter ⟨none, none, some c⟩, .iter ⟨none, some (0, true), none⟩, .iter ⟨some 0, none, none⟩]).sessions ∧
      ∀ pre, c.hs.reads = pre ++ [.data [5, 6]] → dataOf pre <+: Spec.authBytes [7] := by
  refine ⟨by decide, ?_⟩
  intro pre h
  have h' : ([.data [1, 0], .data [0, 0, 1, 7]] : List ReadAns) ++ [.data [5, 6]] = pre ++ [.data [5, 6]] := h
  rw [← List.append_cancel_right h']
  exact ⟨[], by decide⟩

/-! ## The client's handshake -/

/-- C31, the handshake: a client with a token considers the connection usable only if it sent exactly its
authentication message and then read an Ack as the first thing the server sent. -/
theorem C31_client_needs_ack (token : Bytes) (e : HsEnv) :
    match hsClient token e with
    | .accepted id wire rest lost =>
      id = token ∧ wire = Spec.authBytes token ∧
        ∃ pre a, e.reads = pre ++ rest ∧ a ≠ 0 ∧ dataOf pre = 1 :: a :: lost
    | .waiting wire | .failed wire => wire <+: Spec.authBytes token
    | .panicked => False := by
  unfold hsClient
  have hfr : Auth.encode Auth.clientCodec.init (.auth token) = (.ack, Spec.authBytes token) := by
    simp [Auth.encode, Spec.authBytes, Auth.WIRE_ID]
  rw [hfr]
  simp only
  rcases h1 : ({} : Writer).sendAwait (Spec.authBytes token) e.sendAns with ⟨o, w⟩
  have hs := sendAwait_fresh (Spec.authBytes token) e.sendAns h1
  cases o with
  | pending => exact ⟨_, hs.1⟩
  | err => exact ⟨_, hs.1⟩
  | ok =>
    obtain ⟨hw, hb⟩ := hs.2 rfl
    simp only
    rcases h2 : w.flushAwait e.flushAns with ⟨o2, w2⟩
    obtain ⟨hw2, hb2⟩ := flushAwait_empty w hb _ h2
    have hpre : w2.wire <+: Spec.authBytes token := ⟨[], by simp [hw2, hw]⟩
    cases o2 with
    | pending => exact hpre
    | err => exact hpre
    | ok =>
      simp only
      rcases h3 : ({ st := .ack } : Reader Auth.State).await Auth.clientCodec e.reads with ⟨o, rd, rest⟩ | _
      case panic => exact client_no_panic _ _ rfl h3
      cases o with
      | pending => exact hpre
      | ended => exact hpre
      | err _ => exact hpre
      | item m =>
        obtain ⟨rfl, pre, a, hp, ha, hd⟩ := client_await h3
        exact ⟨rfl, by rw [hw2, hw], pre, a, hp, ha, hd⟩

/-- C31: with any other server behaviour (nothing, a Reject, a wrong wire id, a close, an error before two
bytes arrived) the connection does not become usable. -/
theorem C31_otherwise_not_usable (token : Bytes) (e : HsEnv)
    (hno : ∀ a x, a ≠ 0 → dataOf e.reads ≠ 1 :: a :: x) :
    ∃ wire, hsClient token e = .waiting wire ∨ hsClient token e = .failed wire := by
  have h := C31_client_needs_ack token e
  cases hc : hsClient token e with
  | waiting w => exact ⟨w, .inl rfl⟩
  | failed w => exact ⟨w, .inr rfl⟩
  | panicked => rw [hc] at h; exact h.elim
  | accepted id wire rest lost =>
    rw [hc] at h
    obtain ⟨-, -, pre, a, hp, ha, hd⟩ := h
    exact absurd (by rw [hp, dataOf_append, hd]; rfl) (hno a (lost ++ dataOf rest) ha)

/-- A Reject, a garbage answer and an Ack. -/
example : hsClient [7] ⟨[.data [1, 0]], [.ok 100, .ok 1], [.ok 1], []⟩ = .failed (Spec.authBytes [7]) ∧
    hsClient [7] ⟨[.pending, .data [2], .data [1]], [.ok 100, .ok 1], [.ok 1], []⟩ = .failed (Spec.authBytes [7]) ∧
    hsClient [7] ⟨[.data [1], .pending, .data [1], .data [5]], [.ok 3, .ok 100, .ok 1], [.ok 1], []⟩
      = .accepted [7] (Spec.authBytes [7]) [.data [5]] [] := by decide

/-- C62, client side: if the server sends nothing after its Ack before the client's first data (both reply
and publisher sockets only react to the client's frames), then nothing is thrown away and the data codec
gets exactly the bytes after the Ack. -/
theorem C62_client_switch (token : Bytes) (e : HsEnv) (id wire : Bytes) (rest : List ReadAns) (lost : Bytes)
    (hacc : hsClient token e = .accepted id wire rest lost)
    (hfollow : ∀ pre, e.reads = pre ++ rest → dataOf pre <+: [1, 1]) :
    lost = [] ∧ dataOf e.reads = [1, 1] ++ dataOf rest := by
  have h := C31_client_needs_ack token e
  rw [hacc] at h
  obtain ⟨-, -, pre, a, hp, ha, hd⟩ := h
  have h1 := hfollow pre hp
  rw [hd] at h1
  obtain ⟨y, hy⟩ := h1
  simp only [List.cons_append, List.cons.injEq, true_and, List.append_eq_nil_iff] at hy
  obtain ⟨rfl, rfl, rfl⟩ := hy
  exact ⟨rfl, by rw [hp, dataOf_append, hd]⟩

/-- The hypotheses are met by a fragmented handshake followed by data; and they matter: a peer that pipelines
its first data frame with its token loses it. -/
example :
    hsServer (fun _ => true) ⟨[.data [1, 0], .pending, .data [0, 0, 1, 7], .data [9, 9]], [.ok 2, .ok 1], [.ok 1], []⟩
      = .accepted [7] [1, 1] [.data [9, 9]] [] ∧
    hsServer (fun _ => true) ⟨[.data (Spec.authBytes [7] ++ [9]), .data [9]], [.ok 2, .ok 1], [.ok 1], []⟩
      = .accepted [7] [1, 1] [.data [9]] [9] := by decide

/-! ## C27, C29 -/

/-- C27: with `max_clients = n`, in every history at most `n` connections are being accepted, authenticated
or served. -/
theorem C27_publisher_max_clients (n : Nat) (authn : Option (Bytes → Bool)) (acts : List (Pub.DAct A)) :
    let d := ({ max := some n, authn } : Pub.Driver A).run acts
    d.connTasks.length + d.authTasks.length + d.sessions.length ≤ n := by
  obtain ⟨h1, h2, -⟩ := Pub.run_dinv acts ({ max := some n, authn } : Pub.Driver A)
  have h := h1 (Pub.new_dinv (some n) authn)
  exact Nat.le_trans h.le (h.max n h2)

/-- C29 (refuted as stated): with `max_clients = 1`, a client whose authentication frame is cut after four
bytes makes its authentication task panic; the connection is gone, the counter stays at 1 and every later
client is turned away. -/
theorem C29_counter_leaks_refuted :
    let bad : Conn Nat := ⟨0, some 0, ⟨[.data [1, 0, 0, 0], .data [1, 7]], [.ok 2, .ok 1], [.ok 1], []⟩⟩
    let d := ({ max := some 1, authn := some fun _ => true } : Pub.Driver Nat).run
      [.iter ⟨none, none, some bad⟩, .iter ⟨none, some (0, true), none⟩, .iter ⟨some 0, none, none⟩]
    d.active = 1 ∧ d.connTasks = [] ∧ d.authTasks = [] ∧ d.sessions = [] ∧
    ∀ c : Conn Nat, (d.iter ⟨none, none, some c⟩).connTasks = [] := by
  refine ⟨rfl, rfl, rfl, rfl, fun c => rfl⟩

/-- C29 (partial): in every history the counter is at least the number of connections (so it never
underflows), and it is exact as long as no client makes its authentication task panic — in particular
always without authenticator. Missing: clients whose authentication frame is cut at one of the positions of
C08, for which the property is false (`C29_counter_leaks_refuted`). -/
theorem C29_counter_exact_partial (max : Option Nat) (authn : Option (Bytes → Bool)) (acts : List (Pub.DAct A)) :
    let d := ({ max, authn } : Pub.Driver A).run acts
    let clients := d.connTasks.length + d.authTasks.length + d.sessions.length
    clients ≤ d.active ∧
    ((∀ e, Pub.DAct.iter e ∈ acts → ∀ f c, authn = some f → e.accept = some c → hsServer f c.hs ≠ .panicked) →
      d.active = clients) := by
  intro d clients
  constructor
  · exact ((Pub.run_dinv acts ({ max, authn } : Pub.Driver A)).1 (Pub.new_dinv max authn)).le
  · intro hnew
    refine (Pub.run_pres acts ({ max, authn } : Pub.Driver A) hnew).eq ?_ rfl
    intro f _ c hc
    simp at hc

/-- C29: when the counter is exact, a client arriving when fewer than `max_clients` are there is admitted. -/
theorem C29_room_admits (max : Nat) (authn : Option (Bytes → Bool)) (acts : List (Pub.DAct A)) (c : Conn A) :
    let d := ({ max := some max, authn } : Pub.Driver A).run acts
    let clients := d.connTasks.length + d.authTasks.length + d.sessions.length
    d.active = clients → clients < max →
      (d.iter ⟨none, none, some c⟩).connTasks = d.connTasks ++ [c] := by
  intro d clients he hlt
  obtain ⟨-, hm, -⟩ := Pub.run_dinv acts ({ max := some max, authn } : Pub.Driver A)
  have hm' : d.max = some max := hm
  simp only [Pub.Driver.iter, Pub.Driver.stepJoin, Pub.Driver.stepConn, Pub.Driver.stepAccept, hm']
  rw [if_neg (by omega)]

/-- A history in which clients are admitted, authenticated, rejected, turned away and leave. -/
example :
    let conn : Nat → UInt8 → Conn Nat := fun u t =>
      ⟨u, some u, ⟨[.data (Spec.authBytes [t])], [.ok 2, .ok 1], [.ok 1], [.ok 1]⟩⟩
    let d0 : Pub.Driver Nat := { max := some 2, authn := some (· == [7]) }
    let acts : List (Pub.DAct Nat) := [.iter ⟨none, none, some (conn 1 7)⟩, .iter ⟨none, none, some (conn 2 8)⟩,
      .iter ⟨none, none, some (conn 3 7)⟩, .iter ⟨none, some (0, true), none⟩, .iter ⟨none, some (0, true), none⟩,
      .iter ⟨some 0, none, none⟩]
    (d0.run acts).active = 2 ∧ (d0.run acts).sessions = [(conn 1 7, [])] ∧ (d0.run acts).authTasks = [conn 2 8] ∧
    (d0.run (acts ++ [.iter ⟨some 0, none, none⟩])).active = 1 ∧
    (d0.run (acts ++ [.iter ⟨some 0, none, none⟩, .sessionEnd 0])).active = 0 := by
  refine ⟨rfl, rfl, rfl, rfl, rfl⟩

end MsgRs.Props
