import Verif.Proofs.Auth
/-!
# Properties C01–C11: the wire formats

`Message.new` is what the sockets call to build a frame; `encode`/`decode` are the codec;
`Reader.new`/`observe` is the framed connection polled by a consumer, where the list of `ReadAns`
is the environment: any cut of the byte stream into reads, with `Pending` anywhere.
-/
namespace MsgRs.Props
open MsgRs

/-! ## C01 -/

/-- C01: a request/reply frame round-trips, for every id, compression byte and payload below
4 GiB, consuming exactly its own bytes. -/
theorem C01_reqrep_roundtrip (id : UInt32) (ctype : UInt8) (payload rest : Bytes)
    (hlen : payload.length < 2 ^ 32) :
    ∃ m, ReqRep.decode .header (ReqRep.encode (ReqRep.Message.new id ctype payload) ++ rest)
        = .ok (.item m, .header, rest) ∧
      m.header.id = id ∧ m.header.ctype = ctype ∧ m.payload = payload ∧
      m = ReqRep.Message.new id ctype payload :=
  ⟨_, ReqRep.decode_encode _ rest (by
    simp [ReqRep.Message.WF, ReqRep.Message.new]; omega), rfl, rfl, rfl, rfl⟩

example : ([1, 2, 3] : Bytes).length < 2 ^ 32 := by decide
/-- A concrete frame, for orientation: 02, compression type, id, size, payload. -/
example : ReqRep.encode (ReqRep.Message.new 258 1 [7, 8]) =
    [2, 1, 0, 0, 1, 2, 0, 0, 0, 2, 7, 8] := by decide

/-! ## C02 -/

/-- The messages built from a list of (id, compression type, payload). -/
def rrMsgs (l : List (UInt32 × UInt8 × Bytes)) : List ReqRep.Message :=
  l.map fun x => ReqRep.Message.new x.1 x.2.1 x.2.2

/-- C02: for every list of messages with payloads below 4 GiB and every environment:
1. whatever the connection does (cuts, pendings, errors, end of file, missing tail), the messages
   received are a prefix of the messages sent, and nothing panics;
2. if the connection stays open and delivers all bytes, every consumer that polls often enough
   receives exactly the messages sent, and no error;
3. if the connection is closed after all bytes, the consumer receives exactly the messages, then a
   clean end of stream. -/
theorem C02_reqrep_fragmentation (l : List (UInt32 × UInt8 × Bytes))
    (hlen : ∀ x ∈ l, x.2.2.length < 2 ^ 32) :
    let sent := rrMsgs l
    let bytes := sent.flatMap ReqRep.encode
    (∀ as n, dataOf as <+: bytes → ∃ out,
      (Reader.new ReqRep.codec).observe ReqRep.codec n as = .ok out ∧ itemsOf out <+: sent) ∧
    (∀ as n, OpenAns as → dataOf as = bytes → sent.length + as.length + 1 ≤ n →
      (Reader.new ReqRep.codec).observe ReqRep.codec n as = .ok (sent.map .item)) ∧
    (∀ as rest n, OpenAns as → dataOf as = bytes → sent.length + as.length + 1 ≤ n →
      (Reader.new ReqRep.codec).observe ReqRep.codec n (as ++ .data [] :: rest)
        = .ok (sent.map .item ++ [.ended])) := by
  intro sent bytes
  have hwf : ∀ m ∈ sent, m.WF := by
    intro m hm
    obtain ⟨x, hx, rfl⟩ := List.mem_map.mp hm
    have := hlen x hx
    simp [ReqRep.Message.WF, ReqRep.Message.new]; omega
  have hdr : Drains ReqRep.codec ReqRep.codec.init bytes sent none :=
    drains_encoded ReqRep.codec ReqRep.encode ReqRep.decode_nil ReqRep.Message.WF
      (fun m x h => ReqRep.decode_encode m x h) sent hwf
  refine ⟨?_, ?_, ?_⟩
  · rintro as n ⟨y, hy⟩
    exact observe_any ReqRep.inc n as (new_live _) (y := y)
      (by rw [hy]; exact hdr)
  · intro as n ho hda hn
    obtain ⟨out, h1, -, h3⟩ := observe_open ReqRep.inc n as ho (new_good _ ReqRep.decode_nil)
      (ms := sent) (e := none) (by rw [hda]; exact hdr)
    rw [h1, h3 hn]; simp [resultsOf]
  · intro as rest n ho hda hn
    have := observe_then_eof ReqRep.inc as rest ho n (new_good _ ReqRep.decode_nil)
      (ms := sent) (s' := ReqRep.codec.init) (b' := [])
      (by
        rw [hda]
        exact drainsTo_encoded ReqRep.codec ReqRep.encode ReqRep.decode_nil ReqRep.Message.WF
          (fun m x h => ReqRep.decode_encode m x h) sent hwf) hn
    simpa using this

/-- A concrete cut in the middle of the header, with a pending in between. -/
example : OpenAns [.data [2, 1, 0], .pending, .data [0, 1, 2, 0, 0, 0, 2, 7], .data [8]] ∧
    dataOf [.data [2, 1, 0], .pending, .data [0, 1, 2, 0, 0, 0, 2, 7], .data [8]]
      = (rrMsgs [(258, 1, [7, 8])]).flatMap ReqRep.encode := by
  constructor
  · simp [OpenAns]
  · decide

/-! ## C03 -/

/-- C03: for every byte string there is one list of results (messages, possibly ending in an
error) such that every cut of these bytes into reads, with pendings anywhere, gives the consumer
at every moment a prefix of that list, and all of it when polled often enough; nothing panics. -/
theorem C03_reqrep_arbitrary_bytes (bytes : Bytes) :
    ∃ results : List (FOut ReqRep.Err ReqRep.Message), ∃ bound : Nat,
      ∀ as, OpenAns as → dataOf as = bytes →
        (∀ n, ∃ out, (Reader.new ReqRep.codec).observe ReqRep.codec n as = .ok out ∧
          out <+: results) ∧
        (∀ n, bound + as.length ≤ n →
          (Reader.new ReqRep.codec).observe ReqRep.codec n as = .ok results) := by
  obtain ⟨ms, e, hd⟩ := Drains.exists ReqRep.codec ReqRep.inc ReqRep.codec.init bytes
  refine ⟨resultsOf ms e, ms.length + 1, ?_⟩
  intro as ho hda
  have key := fun n => observe_open ReqRep.inc n as ho (new_good _ ReqRep.decode_nil)
    (ms := ms) (e := e) (by rw [hda]; exact hd)
  refine ⟨fun n => ?_, fun n hn => ?_⟩
  · obtain ⟨out, h1, h2, -⟩ := key n; exact ⟨out, h1, h2⟩
  · obtain ⟨out, h1, -, h3⟩ := key n
    rw [h1, h3 (by omega)]

/-- No call of the decoder panics, in any state on any input. -/
theorem C03_reqrep_no_panic (s : ReqRep.State) (b : Bytes) : ReqRep.decode s b ≠ .panic := by
  obtain ⟨r, h⟩ := ReqRep.inc.total s b
  change ReqRep.decode s b = _ at h
  simp [h]

example : OpenAns [.data [9], .pending, .data [2, 2]] := by simp [OpenAns]

/-! ## C04 -/

/-- C04: a pub/sub frame round-trips, for every topic up to 65535 bytes and payload below 4 GiB. -/
theorem C04_pubsub_roundtrip (now : UInt64) (seq : UInt32) (ctype : UInt8)
    (topic payload rest : Bytes) (ht : topic.length ≤ 65535) (hlen : payload.length < 2 ^ 32) :
    ∃ m, PubSub.Message.new now seq topic payload ctype = .ok m ∧
      PubSub.decode .header (PubSub.encode m ++ rest) = .ok (.item m, .header, rest) ∧
      m.header.timestamp = now ∧ m.header.seq = seq ∧ m.header.topic = topic ∧
      m.header.ctype = ctype ∧ m.payload = payload := by
  refine ⟨_, by rw [PubSub.Message.new, if_pos ht], PubSub.decode_encode _ rest ?_, rfl, rfl, rfl,
    rfl, rfl⟩
  constructor
  · simp; omega
  · simp; omega

example : ([0x61, 0x2E] : Bytes).length ≤ 65535 ∧ ([1, 2, 3] : Bytes).length < 2 ^ 32 := by decide

/-! ## C05 -/

/-- C05: like C02, for pub/sub messages. `ms` is any list of messages as built by `Message.new`. -/
theorem C05_pubsub_fragmentation (sent : List PubSub.Message)
    (hsent : ∀ m ∈ sent, ∃ now seq topic payload ctype,
      PubSub.Message.new now seq topic payload ctype = .ok m ∧ payload.length < 2 ^ 32) :
    let bytes := sent.flatMap PubSub.encode
    (∀ as n, dataOf as <+: bytes → ∃ out,
      (Reader.new PubSub.codec).observe PubSub.codec n as = .ok out ∧ itemsOf out <+: sent) ∧
    (∀ as n, OpenAns as → dataOf as = bytes → sent.length + as.length + 1 ≤ n →
      (Reader.new PubSub.codec).observe PubSub.codec n as = .ok (sent.map .item)) ∧
    (∀ as rest n, OpenAns as → dataOf as = bytes → sent.length + as.length + 1 ≤ n →
      (Reader.new PubSub.codec).observe PubSub.codec n (as ++ .data [] :: rest)
        = .ok (sent.map .item ++ [.ended])) := by
  intro bytes
  have hwf : ∀ m ∈ sent, m.WF := by
    intro m hm
    obtain ⟨now, seq, topic, payload, ctype, h1, h2⟩ := hsent m hm
    unfold PubSub.Message.new at h1
    split at h1
    · cases h1
      constructor <;> simp <;> omega
    · cases h1
  have hdr : Drains PubSub.codec PubSub.codec.init bytes sent none :=
    drains_encoded PubSub.codec PubSub.encode PubSub.decode_nil PubSub.Message.WF
      (fun m x h => PubSub.decode_encode m x h) sent hwf
  refine ⟨?_, ?_, ?_⟩
  · rintro as n ⟨y, hy⟩
    exact observe_any PubSub.inc n as (new_live _) (y := y)
      (by rw [hy]; exact hdr)
  · intro as n ho hda hn
    obtain ⟨out, h1, -, h3⟩ := observe_open PubSub.inc n as ho (new_good _ PubSub.decode_nil)
      (ms := sent) (e := none) (by rw [hda]; exact hdr)
    rw [h1, h3 hn]; simp [resultsOf]
  · intro as rest n ho hda hn
    have := observe_then_eof PubSub.inc as rest ho n (new_good _ PubSub.decode_nil)
      (ms := sent) (s' := PubSub.codec.init) (b' := [])
      (by
        rw [hda]
        exact drainsTo_encoded PubSub.codec PubSub.encode PubSub.decode_nil PubSub.Message.WF
          (fun m x h => PubSub.decode_encode m x h) sent hwf) hn
    simpa using this

/-- Messages as required exist: a published message and a subscription. -/
example : ∃ m, PubSub.Message.new 77 3 [0x61] [1, 2] 0 = .ok m ∧ ([1, 2] : Bytes).length < 2 ^ 32 :=
  ⟨_, rfl, by decide⟩

/-! ## C06 -/

/-- C06: like C03, for the pub/sub decoder. -/
theorem C06_pubsub_arbitrary_bytes (bytes : Bytes) :
    ∃ results : List (FOut PubSub.Err PubSub.Message), ∃ bound : Nat,
      ∀ as, OpenAns as → dataOf as = bytes →
        (∀ n, ∃ out, (Reader.new PubSub.codec).observe PubSub.codec n as = .ok out ∧
          out <+: results) ∧
        (∀ n, bound + as.length ≤ n →
          (Reader.new PubSub.codec).observe PubSub.codec n as = .ok results) := by
  obtain ⟨ms, e, hd⟩ := Drains.exists PubSub.codec PubSub.inc PubSub.codec.init bytes
  refine ⟨resultsOf ms e, ms.length + 1, ?_⟩
  intro as ho hda
  have key := fun n => observe_open PubSub.inc n as ho (new_good _ PubSub.decode_nil)
    (ms := ms) (e := e) (by rw [hda]; exact hd)
  refine ⟨fun n => ?_, fun n hn => ?_⟩
  · obtain ⟨out, h1, h2, -⟩ := key n; exact ⟨out, h1, h2⟩
  · obtain ⟨out, h1, -, h3⟩ := key n
    rw [h1, h3 (by omega)]

/-- No call of the decoder panics, in any state on any input. -/
theorem C06_pubsub_no_panic (s : PubSub.State) (b : Bytes) : PubSub.decode s b ≠ .panic := by
  obtain ⟨r, h⟩ := PubSub.inc.total s b
  change PubSub.decode s b = _ at h
  simp [h]

example : OpenAns [.data [3, 0], .pending, .data [0, 0]] := by simp [OpenAns]

/-! ## C07 -/

/-- C07: an authentication frame delivered whole (alone or with following bytes) is decoded to the
token; Ack and Reject are decoded by the client as success and rejection. -/
theorem C07_auth_roundtrip (id rest : Bytes) (s : Auth.State) (hid : id.length < 2 ^ 32) :
    Auth.decode Auth.newServer ((Auth.encode s (.auth id)).2 ++ rest)
      = .ok (.item (.auth id), .ack, rest) ∧
    Auth.decode Auth.newClient ((Auth.encode s .ack).2 ++ rest) = .ok (.item .ack, .ack, rest) ∧
    Auth.decode Auth.newClient ((Auth.encode s .reject).2 ++ rest)
      = .ok (.err .rejected, .ack, rest) := by
  refine ⟨?_, ?_, ?_⟩
  · have h := Auth.decodeServer_prefix id (Auth.WIRE_ID :: (putU32 (UInt32.ofNat id.length) ++ id)
      ++ rest) [] rest hid (by simp)
    rw [Auth.encode_auth]
    show Auth.decodeServer _ = _
    rw [h, if_neg (by simp; omega), if_neg (by simp; omega), if_neg (by simp; omega),
      if_neg (by simp; omega)]
    have : id.length + 5 = (Auth.WIRE_ID :: (putU32 (UInt32.ofNat id.length) ++ id)).length := by
      simp; omega
    rw [this, List.drop_left]
  · show Auth.decodeClient _ = _
    rw [Auth.decodeClient_eq]; rfl
  · show Auth.decodeClient _ = _
    rw [Auth.decodeClient_eq]; rfl

example : ([0xDE, 0xAD] : Bytes).length < 2 ^ 32 := by decide

/-! ## C08 -/

/-- The frame of an authentication message. -/
def authFrame (id : Bytes) : Bytes := (Auth.encode Auth.newClient (.auth id)).2

/-- C08 (refuted as stated in English): a two-byte token whose frame arrives as 4 + 3 bytes makes
the server-side decoder panic, and so does a cut after 5 of the 7 bytes. -/
theorem C08_auth_fragmentation_refuted :
    authFrame [0xAA, 0xBB] = [1, 0, 0, 0, 2, 0xAA, 0xBB] ∧
    (Reader.new Auth.serverCodec).next Auth.serverCodec
      [.data [1, 0, 0, 0], .data [2, 0xAA, 0xBB]] = .panic ∧
    (Reader.new Auth.serverCodec).next Auth.serverCodec
      [.data [1, 0, 0, 0, 2], .data [0xAA, 0xBB]] = .panic := by decide

/-- C08 (partial): exactly which cuts are dangerous. For every token and every cut of its frame
(followed by anything) into non-empty reads: if no read boundary leaves `p` buffered bytes with
`p = 4`, or `5 ≤ p` and `len ≤ p < len + 5`, then the server decodes the token and keeps exactly the
following bytes; if some boundary does, it panics. Missing from the full property: safety for the
dangerous cuts, which the code does not provide. -/
theorem C08_auth_fragmentation_partial (id rest : Bytes) (hid : id.length < 2 ^ 32)
    (chunks : List Bytes) (hne : ∀ c ∈ chunks, c ≠ [])
    (hflat : chunks.flatten = authFrame id ++ rest) :
    let dangerous := fun k =>
      let p := (chunks.take k).flatten.length
      p = 4 ∨ (5 ≤ p ∧ id.length ≤ p ∧ p < id.length + 5)
    ((∀ k ≤ chunks.length, ¬ dangerous k) →
      ∃ r' chunks', (Reader.new Auth.serverCodec).next Auth.serverCodec (chunks.map .data)
        = .ok (.item (.auth id), r', List.map .data chunks') ∧ r'.buf ++ chunks'.flatten = rest) ∧
    ((∃ k ≤ chunks.length, dangerous k) →
      (Reader.new Auth.serverCodec).next Auth.serverCodec (chunks.map .data) = .panic) := by
  intro dangerous
  have hfilter : ((chunks.map ReadAns.data).filter (· ≠ .pending)) = chunks.map .data := by
    rw [List.filter_eq_self]
    intro a ha
    obtain ⟨c, -, rfl⟩ := List.mem_map.mp ha
    simp
  have key := Auth.next_server id rest hid chunks [] (Reader.new Auth.serverCodec) rfl rfl rfl rfl
    rfl hne (by rw [List.nil_append, hflat, authFrame, Auth.encode_auth]) (by simp)
  unfold Reader.next
  rw [hfilter]
  constructor
  · intro hno
    obtain ⟨r', cs', h1, -, h3⟩ := key.1 (fun k hk _ => hno k hk)
    exact ⟨r', cs', h1, h3⟩
  · rintro ⟨k, hk, hbad⟩
    refine key.2 ⟨k, hk, ?_, hbad⟩
    cases k with
    | zero => simp [dangerous] at hbad
    | succ k => omega

/-- Both cases occur: a harmless cut of a 12-byte token's frame, and a dangerous one. -/
example : [([1, 0] : Bytes), [0, 0, 12, 1, 2, 3, 4, 5, 6], [7, 8, 9, 10, 11, 12]].flatten
      = authFrame [1, 2, 3, 4, 5, 6, 7, 8, 9, 10, 11, 12] ++ [] ∧
    (∀ k ≤ 3, ¬ (let p := ([([1, 0] : Bytes), [0, 0, 12, 1, 2, 3, 4, 5, 6],
        [7, 8, 9, 10, 11, 12]].take k).flatten.length
      p = 4 ∨ (5 ≤ p ∧ 12 ≤ p ∧ p < 12 + 5))) := by decide

/-- C08: what the server-side decoder does on an arbitrary buffer: it panics exactly when the
buffer starts with the auth wire id and holds 4 bytes, or at least 5 bytes of which the announced
length exceeds what follows the header but not the whole buffer. -/
theorem C08_server_decode_panics_iff (b : Bytes) :
    Auth.decode Auth.newServer b = .panic ↔
      b.head? = some Auth.WIRE_ID ∧ (b.length = 4 ∨
        (5 ≤ b.length ∧ beNat ((b.drop 1).take 4) ≤ b.length ∧
          b.length < beNat ((b.drop 1).take 4) + 5)) := by
  show Auth.decodeServer b = .panic ↔ _
  rw [Auth.decodeServer_eq]
  cases b with
  | nil => simp
  | cons w t =>
    simp only [List.head?_cons, Option.some.injEq, List.length_cons, List.drop_succ_cons,
      List.drop_zero]
    by_cases hw : w = Auth.WIRE_ID
    · rw [if_neg (by simp [hw])]
      by_cases h3 : t.length < 3
      · rw [if_pos h3]; simp [hw]; omega
      · rw [if_neg h3]
        by_cases h4 : t.length = 3
        · rw [if_pos h4]; simp [hw, h4]
        · rw [if_neg h4]
          have hid : Auth.idLen t = beNat (t.take 4) := by
            obtain ⟨a, t, rfl, h⟩ := length_ge_cons (n := 3) (l := t) (by omega)
            obtain ⟨b, t, rfl, h⟩ := length_ge_cons (n := 2) (l := t) (by omega)
            obtain ⟨c, t, rfl, h⟩ := length_ge_cons (n := 1) (l := t) (by omega)
            obtain ⟨d, t, rfl, h⟩ := length_ge_cons (n := 0) (l := t) (by omega)
            have hb : beNat [a, b, c, d] < 2 ^ 32 := by
              have h1 := a.toNat_lt; have h2 := b.toNat_lt
              have h3 := c.toNat_lt; have h4 := d.toNat_lt
              simp [beNat] at *; omega
            show (UInt32.ofNat (beNat [a, b, c, d])).toNat = beNat [a, b, c, d]
            rw [UInt32.toNat_ofNat']
            omega
          rw [hid]
          by_cases h5 : t.length + 1 < beNat (t.take 4)
          · rw [if_pos h5]; simp [hw]; omega
          · rw [if_neg h5]
            by_cases h6 : t.length - 4 < beNat (t.take 4)
            · rw [if_pos h6]; simp [hw]; omega
            · rw [if_neg h6]; simp [hw]; omega
    · rw [if_pos hw]; simp [hw]

/-! ## C09 -/

/-- C09: what the client concludes from its buffer. -/
theorem C09_client_decision (b : Bytes) :
    (b.length < 2 → Auth.decode Auth.newClient b = .ok (.more, .ack, b)) ∧
    (∀ w a t, b = w :: a :: t →
      Auth.decode Auth.newClient b =
        if w ≠ 1 then .ok (.err (.wireId w), .ack, b)
        else if a = 0 then .ok (.err .rejected, .ack, t)
        else .ok (.item .ack, .ack, t)) := by
  constructor
  · intro h
    show Auth.decodeClient b = _
    rw [Auth.decodeClient, if_pos h]
  · rintro w a t rfl
    show Auth.decodeClient _ = _
    rw [Auth.decodeClient_eq]
    rfl

/-- C09 (connection level): whatever the server and the connection do, the client's handshake read
returns a message only if the first two bytes received are the auth wire id and a non-zero status,
and then the message is Ack. -/
theorem C09_client_ack_only (as : List ReadAns) (m : Auth.Message) (r' as')
    (h : (Reader.new Auth.clientCodec).next Auth.clientCodec as = .ok (.item m, r', as')) :
    m = .ack ∧ ∃ a t, dataOf (as.filter (· ≠ .pending)) = 1 :: a :: t ∧ a ≠ 0 := by
  have := Auth.client_pollNext_item _ (Reader.new Auth.clientCodec) rfl rfl h
  simpa [Reader.new, Auth.WIRE_ID] using this

example : (Reader.new Auth.clientCodec).next Auth.clientCodec [.data [1], .pending, .data [1]]
    = .ok (.item .ack, { st := .ack, buf := [], readable := true }, []) := by decide

/-! ## C10 -/

/-- C10: any non-empty byte string is refused by a decoder of a protocol whose wire id differs from
its first byte; in particular frames of the other two protocols. For the client-side auth decoder
the decision needs two bytes. -/
theorem C10_wire_ids_separate (w : UInt8) (t : Bytes) :
    (w ≠ ReqRep.WIRE_ID → ReqRep.decode .header (w :: t) = .ok (.err (.wireId w), .header, w :: t)) ∧
    (w ≠ PubSub.WIRE_ID → PubSub.decode .header (w :: t) = .ok (.err (.wireId w), .header, w :: t)) ∧
    (w ≠ Auth.WIRE_ID →
      Auth.decode Auth.newServer (w :: t) = .ok (.err (.wireId w), .authReceive, w :: t)) ∧
    (w ≠ Auth.WIRE_ID → t ≠ [] →
      Auth.decode Auth.newClient (w :: t) = .ok (.err (.wireId w), .ack, w :: t)) := by
  refine ⟨fun h => ?_, fun h => ?_, fun h => ?_, fun h ht => ?_⟩
  · show ReqRep.decodeHeader _ = _
    rw [ReqRep.decodeHeader_eq]; simp [h]
  · show PubSub.decodeHeader _ = _
    rw [PubSub.decodeHeader_eq]; simp [h]
  · show Auth.decodeServer _ = _
    rw [Auth.decodeServer_eq]; simp [h]
  · show Auth.decodeClient _ = _
    rw [Auth.decodeClient_eq]
    cases t with
    | nil => exact absurd rfl ht
    | cons a t => simp [h]

/-- C10: the three encoders produce three different first bytes, so no frame of one protocol is
accepted by a decoder of another. -/
theorem C10_frames_start_with_their_id (m : ReqRep.Message) (p : PubSub.Message)
    (s : Auth.State) (a : Auth.Message) :
    (ReqRep.encode m).head? = some 2 ∧ (PubSub.encode p).head? = some 3 ∧
    (Auth.encode s a).2.head? = some 1 ∧
    ReqRep.WIRE_ID = 2 ∧ PubSub.WIRE_ID = 3 ∧ Auth.WIRE_ID = 1 := by
  refine ⟨rfl, rfl, ?_, rfl, rfl, rfl⟩
  cases a <;> rfl

example : (1 : UInt8) ≠ ReqRep.WIRE_ID ∧ (2 : UInt8) ≠ PubSub.WIRE_ID := by decide

/-! ## C11 -/

/-- C11 (refuted as stated in English): a payload of 4 GiB is accepted by `Message::new` but its
frame announces size 0: the receiver gets an empty payload and the payload bytes are parsed as the
next frames. -/
theorem C11_oversize_reqrep_refuted (id : UInt32) (ctype : UInt8) (payload rest : Bytes)
    (h : payload.length = 2 ^ 32) :
    ReqRep.decode .header (ReqRep.encode (ReqRep.Message.new id ctype payload) ++ rest)
      = .ok (.item (ReqRep.Message.new id ctype []), .header, payload ++ rest) := by
  have e : ReqRep.encode (ReqRep.Message.new id ctype payload) ++ rest
      = ReqRep.encode (ReqRep.Message.new id ctype []) ++ (payload ++ rest) := by
    simp [ReqRep.encode, ReqRep.Message.new, h]
  rw [e]
  exact ReqRep.decode_encode _ _ (by simp [ReqRep.Message.WF, ReqRep.Message.new])

/-- A payload of that length exists. -/
example : ∃ payload : Bytes, payload.length = 2 ^ 32 :=
  ⟨List.replicate (2 ^ 32) 0, List.length_replicate⟩

/-- C11 (partial): in general the receiver sees the payload cut to its length modulo 2^32, so a message is
delivered intact iff it is shorter than 4 GiB. Missing: longer payloads, for which this is false (`C11_oversize_reqrep_refuted`). -/
theorem C11_reqrep_intact_iff_partial (id : UInt32) (ctype : UInt8) (payload : Bytes) :
    (∃ rest, ReqRep.decode .header (ReqRep.encode (ReqRep.Message.new id ctype payload))
        = .ok (.item (ReqRep.Message.new id ctype payload), .header, rest)) ↔
      payload.length < 2 ^ 32 := by
  have hsz : (UInt32.ofNat payload.length).toNat = payload.length % 2 ^ 32 := by simp
  have e : ReqRep.encode (ReqRep.Message.new id ctype payload)
      = ReqRep.encode { header := (ReqRep.Message.new id ctype payload).header,
                        payload := payload.take (payload.length % 2 ^ 32) }
        ++ payload.drop (payload.length % 2 ^ 32) := by
    simp [ReqRep.encode, ReqRep.Message.new]
  rw [e, ReqRep.decode_encode _ _ (by
    show (UInt32.ofNat payload.length).toNat = _
    rw [hsz, List.length_take]
    have := Nat.mod_le payload.length (2 ^ 32)
    omega)]
  constructor
  · rintro ⟨rest, h⟩
    simp only [R.ok.injEq, Prod.mk.injEq, Dec.item.injEq, ReqRep.Message.new,
      ReqRep.Message.mk.injEq, true_and] at h
    have := congrArg List.length h.1
    rw [List.length_take] at this
    have hm := Nat.mod_lt payload.length (by decide : 2 ^ 32 > 0)
    omega
  · intro h
    exact ⟨_, by simp [ReqRep.Message.new, Nat.mod_eq_of_lt h]; rfl⟩

/-- C11 (partial): the same for pub/sub payloads. Missing: the same. -/
theorem C11_pubsub_intact_iff_partial (m : PubSub.Message) (now : UInt64) (seq : UInt32)
    (topic payload : Bytes) (ctype : UInt8)
    (hm : PubSub.Message.new now seq topic payload ctype = .ok m) :
    (∃ rest, PubSub.decode .header (PubSub.encode m) = .ok (.item m, .header, rest)) ↔
      payload.length < 2 ^ 32 := by
  unfold PubSub.Message.new at hm
  split at hm
  · rename_i ht
    cases hm
    have hsz : (UInt32.ofNat payload.length).toNat = payload.length % 2 ^ 32 := by simp
    let h : PubSub.Header := { ctype, topicSize := UInt16.ofNat topic.length, topic,
                               timestamp := now, seq, size := UInt32.ofNat payload.length }
    have e : PubSub.encode { header := h, payload }
        = PubSub.encode { header := h, payload := payload.take (payload.length % 2 ^ 32) }
          ++ payload.drop (payload.length % 2 ^ 32) := by
      simp [PubSub.encode]
    show (∃ rest, PubSub.decode .header (PubSub.encode { header := h, payload }) =
      .ok (.item { header := h, payload }, .header, rest)) ↔ _
    rw [e, PubSub.decode_encode _ _ (by
      constructor
      · show (UInt16.ofNat topic.length).toNat = topic.length
        simp; omega
      · show (UInt32.ofNat payload.length).toNat = _
        rw [hsz, List.length_take]
        have := Nat.mod_le payload.length (2 ^ 32)
        omega)]
    constructor
    · rintro ⟨rest, h⟩
      simp only [R.ok.injEq, Prod.mk.injEq, Dec.item.injEq, PubSub.Message.mk.injEq, true_and] at h
      have := congrArg List.length h.1
      rw [List.length_take] at this
      have hm := Nat.mod_lt payload.length (by decide : 2 ^ 32 > 0)
      omega
    · intro hl
      exact ⟨_, by simp [Nat.mod_eq_of_lt hl]; rfl⟩
  · cases hm

example : ∃ m, PubSub.Message.new 5 0 [0x61, 0x62] [9] 0 = .ok m := ⟨_, rfl⟩

/-- C11: topics longer than 65535 bytes make message construction panic; subscribe and unsubscribe
messages panic already for topics longer than 65527 and 65525 bytes. All others are built. -/
theorem C11_topic_limits (now : UInt64) (seq : UInt32) (topic payload : Bytes) (ctype : UInt8) :
    (PubSub.Message.new now seq topic payload ctype = .panic ↔ 65535 < topic.length) ∧
    (PubSub.Message.newSub now topic = .panic ↔ 65527 < topic.length) ∧
    (PubSub.Message.newUnsub now topic = .panic ↔ 65525 < topic.length) := by
  refine ⟨?_, ?_, ?_⟩
  · unfold PubSub.Message.new; split <;> simp <;> omega
  · unfold PubSub.Message.newSub PubSub.Message.new
    simp only [List.length_append, PubSub.subPrefix, List.length_cons, List.length_nil]
    split <;> simp <;> omega
  · unfold PubSub.Message.newUnsub PubSub.Message.new
    simp only [List.length_append, PubSub.unsubPrefix, List.length_cons, List.length_nil]
    split <;> simp <;> omega

end MsgRs.Props
