import Verif.Model.Compression
import Verif.Proofs.Codecs
/-!
# Properties C12–C14: compression
-/
namespace MsgRs.Props
open MsgRs

/-- The decompressor selected for an algorithm, written as a table of its own. -/
def Spec.algo (D : Decompressors) : CType → Bytes → Option Bytes
  | .none => some
  | .gzip => D.gzip
  | .zstd => D.zstd
  | .snappy => D.snappy
  | .lz4 => D.lz4

/-- The decompressor of the compressor's algorithm inverts the compressor. -/
def Spec.Inverts (D : Decompressors) (c : Compressor) : Prop :=
  ∀ p q, c.compress p = some q → Spec.algo D c.ctype q = some p

/-! ## C12 -/

/-- C12: tags are distinct, each tag selects its own algorithm, tag 0 is the identity, every tag above 4
is an error. -/
theorem C12_tag_identifies (D : Decompressors) (data : Bytes) :
    (∀ a b : CType, a.toByte = b.toByte → a = b) ∧
    (∀ a : CType, tryDecompress D a.toByte data = Spec.algo D a data) ∧
    tryDecompress D 0 data = some data ∧
    (∀ tag : UInt8, 4 < tag → tryDecompress D tag data = none) ∧
    (∀ tag : UInt8, tag ≤ 4 → ∃ a : CType, a.toByte = tag) := by
  refine ⟨?_, ?_, rfl, ?_, ?_⟩
  · intro a b; cases a <;> cases b <;> decide
  · intro a; cases a <;> rfl
  · intro tag h
    have h4 : 4 < tag.toNat := h
    have hne : ∀ k : UInt8, k.toNat ≤ 4 → tag ≠ k := by rintro k hk rfl; omega
    unfold tryDecompress CType.ofByte
    rw [if_neg (hne 0 (by decide)), if_neg (hne 1 (by decide)), if_neg (hne 2 (by decide)),
      if_neg (hne 3 (by decide)), if_neg (hne 4 (by decide))]
  · intro tag h
    have h4 : tag.toNat ≤ 4 := h
    have hk : ∀ k : UInt8, tag.toNat = k.toNat → k = tag := fun k h => (UInt8.toNat_inj.mp h).symm
    have : tag.toNat = 0 ∨ tag.toNat = 1 ∨ tag.toNat = 2 ∨ tag.toNat = 3 ∨ tag.toNat = 4 := by omega
    rcases this with h | h | h | h | h
    · exact ⟨.none, hk 0 h⟩
    · exact ⟨.gzip, hk 1 h⟩
    · exact ⟨.zstd, hk 2 h⟩
    · exact ⟨.snappy, hk 3 h⟩
    · exact ⟨.lz4, hk 4 h⟩

example : (4 : UInt8) < 200 ∧ (3 : UInt8) ≤ 4 := by decide

/-! ## C13 -/

/-- C13, request direction: what the reply application reads is what `request` was given, whether or not
the payload was compressed and also when the compressor fails. -/
theorem C13_request_transparent (D : Decompressors) (minSize : Nat) (comp : Option Compressor)
    (hinv : ∀ c, comp = some c → Spec.Inverts D c) (id : UInt32) (payload rest : Bytes)
    (hlen : (requestPrepare minSize comp payload).payload.length < 2 ^ 32) :
    ∃ m, ReqRep.decode .header
          (ReqRep.encode ((requestPrepare minSize comp payload).intoWire id) ++ rest)
        = .ok (.item m, .header, rest) ∧
      m.header.id = id ∧ tryDecompress D m.header.ctype m.payload = some payload := by
  refine ⟨_, ReqRep.decode_encode _ _ ?_, rfl, ?_⟩
  · simp only [ReqMsg.intoWire, ReqRep.Message.WF, ReqRep.Message.new, UInt32.toNat_ofNat']
    exact Nat.mod_eq_of_lt hlen
  · show tryDecompress D (requestPrepare minSize comp payload).ctype.toByte
      (requestPrepare minSize comp payload).payload = some payload
    rw [(C12_tag_identifies D _).2.1]
    unfold requestPrepare
    simp only
    split
    · cases comp with
      | none => rfl
      | some c =>
        simp only [ReqMsg.compress, ReqMsg.new]
        cases h : c.compress payload with
        | none => rfl
        | some p => exact hinv c rfl _ _ h
    · rfl

/-- C13, reply direction: a response that is sent at all decompresses, at the requester, to what the
application responded; it is sent unless the compressor reports an error. -/
theorem C13_reply_transparent (D : Decompressors) (comp : Option Compressor)
    (hinv : ∀ c, comp = some c → Spec.Inverts D c) (id : UInt32) (payload rest : Bytes) :
    (∀ m, replyPrepare comp id payload = some m → m.payload.length < 2 ^ 32 →
      ∃ m', ReqRep.decode .header (ReqRep.encode m ++ rest) = .ok (.item m', .header, rest) ∧
        m'.header.id = id ∧ tryDecompress D m'.header.ctype m'.payload = some payload) ∧
    (replyPrepare comp id payload = none ↔ ∃ c, comp = some c ∧ c.compress payload = none) := by
  constructor
  · intro m hm hlen
    cases comp with
    | none =>
      cases hm
      refine ⟨_, ReqRep.decode_encode _ _ ?_, rfl, rfl⟩
      simp only [ReqRep.Message.WF, ReqRep.Message.new, UInt32.toNat_ofNat']
      exact Nat.mod_eq_of_lt hlen
    | some c =>
      simp only [replyPrepare] at hm
      cases h : c.compress payload with
      | none => rw [h] at hm; cases hm
      | some p =>
        rw [h] at hm; cases hm
        refine ⟨_, ReqRep.decode_encode _ _ ?_, rfl, ?_⟩
        · simp only [ReqRep.Message.WF, ReqRep.Message.new, UInt32.toNat_ofNat']
          exact Nat.mod_eq_of_lt hlen
        · show tryDecompress D c.ctype.toByte p = _
          rw [(C12_tag_identifies D _).2.1]
          exact hinv c rfl _ _ h
  · cases comp with
    | none => simp [replyPrepare]
    | some c =>
      simp only [replyPrepare, Option.some.injEq]
      cases h : c.compress payload with
      | none => simp [h]
      | some p =>
        simp only [reduceCtorEq, false_iff, not_exists, not_and]
        rintro c' rfl
        rw [h]; simp

/-- C13, pub/sub: a message prepared by `publish` or `try_publish` decompresses at the subscriber to the
published payload, under the published topic, whatever the session's sequence number and clock; the
preparation fails only if the compressor reports an error. -/
theorem C13_publish_transparent (D : Decompressors) (comp : Option Compressor)
    (hinv : ∀ c, comp = some c → Spec.Inverts D c) (minSize : Nat) (topic : Str) (payload : Bytes)
    (msg : PubMsg)
    (hmsg : publishPrepare minSize comp topic payload = some msg ∨
      tryPublishPrepare comp topic payload = some msg)
    (now : UInt64) (seq : UInt32) (rest : Bytes)
    (htopic : (utf8 topic).length ≤ 65535) (hlen : msg.payload.length < 2 ^ 32) :
    ∃ w m, msg.intoWire now seq = .ok w ∧
      PubSub.decode .header (PubSub.encode w ++ rest) = .ok (.item m, .header, rest) ∧
      m.header.topic = utf8 topic ∧ m.header.seq = seq ∧
      tryDecompress D m.header.ctype m.payload = some payload := by
  have key : msg.topic = topic ∧ Spec.algo D msg.ctype msg.payload = some payload := by
    have hc : ∀ c, comp = some c → (PubMsg.new topic payload).compress c = some msg →
        msg.topic = topic ∧ Spec.algo D msg.ctype msg.payload = some payload := by
      intro c hc h
      unfold PubMsg.compress at h
      cases h1 : c.compress (PubMsg.new topic payload).payload with
      | none => rw [h1] at h; cases h
      | some p => rw [h1] at h; cases h; exact ⟨rfl, hinv c hc _ _ h1⟩
    have hn : some (PubMsg.new topic payload) = some msg →
        msg.topic = topic ∧ Spec.algo D msg.ctype msg.payload = some payload := by
      intro h; cases h; exact ⟨rfl, rfl⟩
    rcases hmsg with h | h
    · unfold publishPrepare at h
      simp only at h
      split at h
      · cases comp with
        | none => exact hn h
        | some c => exact hc c rfl h
      · exact hn h
    · unfold tryPublishPrepare at h
      cases comp with
      | none => exact hn h
      | some c => exact hc c rfl h
  obtain ⟨h1, h2⟩ := key
  refine ⟨⟨⟨msg.ctype.toByte, UInt16.ofNat (utf8 topic).length, utf8 topic, now, seq,
      UInt32.ofNat msg.payload.length⟩, msg.payload⟩, _, ?_, PubSub.decode_encode _ _ ?_, rfl, rfl, ?_⟩
  · simp only [PubMsg.intoWire, PubSub.Message.new, h1, htopic, if_true]
  · constructor
    · simp; omega
    · simp; exact hlen
  · show tryDecompress D msg.ctype.toByte msg.payload = _
    rw [(C12_tag_identifies D _).2.1]; exact h2

/-- The hypotheses are met by a real (if silly) compressor that changes the payload, and the payload that
crosses the wire is the compressed one. -/
example : ∃ (D : Decompressors) (c : Compressor), Spec.Inverts D c ∧
    (requestPrepare 0 (some c) [1, 2, 3]).payload = [3, 2, 1] ∧
    (requestPrepare 0 (some c) [1, 2, 3]).ctype = .snappy := by
  refine ⟨⟨some, some, fun b => some b.reverse, some⟩, ⟨.snappy, fun b => some b.reverse⟩, ?_, rfl, rfl⟩
  intro p q h
  cases h
  simp [Spec.algo]

/-! ## C14 -/

/-- C14 (refuted for replies and `try_publish`): with a threshold of 100 bytes, payloads of 3 bytes are
compressed; the reply path does not even look at the option. -/
theorem C14_min_compress_refuted :
    ∃ c : Compressor, ∃ payload : Bytes, payload.length = 3 ∧
      replyPrepare (some c) 7 payload = some (ReqRep.Message.new 7 c.ctype.toByte [9]) ∧
      (tryPublishPrepare (some c) ['t'] payload).map (·.payload) = some [9] ∧
      (publishPrepare 100 (some c) ['t'] payload).map (·.payload) = some payload :=
  ⟨⟨.gzip, fun _ => some [9]⟩, [1, 2, 3], rfl, rfl, rfl, rfl⟩

/-- C14 (partial): `request` and `publish` hand the payload to the compressor iff one is configured and
the payload is longer than the threshold; `reply` and `try_publish` do so iff one is configured,
whatever the size. Missing: the threshold on these last two paths (refuted above). -/
theorem C14_min_compress_partial (minSize : Nat) (comp : Option Compressor) (topic : Str)
    (payload : Bytes) :
    -- below or at the threshold: untouched
    (payload.length ≤ minSize →
      requestPrepare minSize comp payload = { ctype := .none, payload } ∧
      publishPrepare minSize comp topic payload = some { ctype := .none, topic, payload }) ∧
    -- no compressor: untouched
    (comp = none →
      requestPrepare minSize comp payload = { ctype := .none, payload } ∧
      publishPrepare minSize comp topic payload = some { ctype := .none, topic, payload } ∧
      tryPublishPrepare comp topic payload = some { ctype := .none, topic, payload } ∧
      ∀ id, replyPrepare comp id payload = some (ReqRep.Message.new id 0 payload)) ∧
    -- above the threshold with a working compressor: compressed and tagged
    (∀ c q, comp = some c → c.compress payload = some q →
      (minSize < payload.length →
        requestPrepare minSize comp payload = { ctype := c.ctype, payload := q } ∧
        publishPrepare minSize comp topic payload = some { ctype := c.ctype, topic, payload := q }) ∧
      tryPublishPrepare comp topic payload = some { ctype := c.ctype, topic, payload := q } ∧
      ∀ id, replyPrepare comp id payload = some (ReqRep.Message.new id c.ctype.toByte q)) := by
  refine ⟨?_, ?_, ?_⟩
  · intro h
    have : ¬ payload.length > minSize := by omega
    simp [requestPrepare, publishPrepare, this, ReqMsg.new, PubMsg.new]
  · rintro rfl
    simp [requestPrepare, publishPrepare, tryPublishPrepare, replyPrepare, ReqMsg.new, PubMsg.new]
  · rintro c q rfl h
    refine ⟨?_, ?_, ?_⟩
    · intro hl
      simp [requestPrepare, publishPrepare, hl, ReqMsg.compress, ReqMsg.new, PubMsg.new,
        PubMsg.compress, h]
    · simp [tryPublishPrepare, PubMsg.new, PubMsg.compress, h]
    · intro id; simp [replyPrepare, h]

example : ∃ c q, (⟨.gzip, fun b => some (b.take 1)⟩ : Compressor) = c ∧ c.compress [1, 2] = some q ∧
    1 < [1, 2].length := ⟨_, [1], rfl, rfl, by decide⟩

end MsgRs.Props
