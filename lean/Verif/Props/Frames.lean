import Verif.Proofs.Frames
/-!
# C68, C69: which messages a byte stream means

`Spec.rrFrame` and `Spec.psFrame` (Spec/Frames) write the two wire formats down without reference to the codecs.
-/
namespace MsgRs.Props
open MsgRs

/-- C68, request/reply: every byte string is a list of complete frames followed by a tail that is the beginning of a
frame or starts with a byte that is not the wire id; and however the bytes are cut into reads, a consumer polling often enough
gets exactly the messages of these frames, followed in the second case by the wire-id error (also if the stream
goes on in any way). -/
theorem C68_reqrep_frames (bytes : Bytes) :
    ∃ (ms : List ReqRep.Message) (tail : Bytes),
      bytes = ms.flatMap Spec.rrFrame ++ tail ∧ (∀ m ∈ ms, Spec.rrOk m) ∧
      ((Spec.Unfinished Spec.rrFrame Spec.rrOk tail ∧
        ∀ as n, OpenAns as → dataOf as = bytes → ms.length + as.length + 1 ≤ n →
          (Reader.new ReqRep.codec).observe ReqRep.codec n as = .ok (ms.map .item)) ∨
       (∃ w t, tail = w :: t ∧ w ≠ 2 ∧
        ∀ as rest n, OpenAns as → dataOf as = bytes → ms.length + as.length + 1 ≤ n →
          (Reader.new ReqRep.codec).observe ReqRep.codec n (as ++ rest) = .ok (ms.map .item ++ [.err (.wireId w)]))) := by
  obtain ⟨ms, e, hd⟩ := Drains.exists ReqRep.codec ReqRep.inc ReqRep.codec.init bytes
  obtain ⟨tail, h1, h2, h3, h4⟩ := hd.exact ReqRep.exact
  refine ⟨ms, tail, h1, h2, ?_⟩
  cases e with
  | none =>
    left
    refine ⟨h3 rfl, ?_⟩
    intro as n ho hda hn
    obtain ⟨out, e1, -, e3⟩ := observe_open ReqRep.inc n as ho (new_good _ ReqRep.decode_nil)
      (ms := ms) (e := none) (by rw [hda]; exact hd)
    rw [e1, e3 hn]; simp [resultsOf]
  | some e =>
    right
    obtain ⟨w, t, ht, hw, rfl⟩ := h4 _ rfl
    refine ⟨w, t, ht, hw, ?_⟩
    intro as rest n ho hda hn
    exact observe_wire_error ReqRep.inc as rest ho n (new_good _ ReqRep.decode_nil) (by rw [hda]; exact hd) hn

/-- C68, pub/sub. -/
theorem C68_pubsub_frames (bytes : Bytes) :
    ∃ (ms : List PubSub.Message) (tail : Bytes),
      bytes = ms.flatMap Spec.psFrame ++ tail ∧ (∀ m ∈ ms, Spec.psOk m) ∧
      ((Spec.Unfinished Spec.psFrame Spec.psOk tail ∧
        ∀ as n, OpenAns as → dataOf as = bytes → ms.length + as.length + 1 ≤ n →
          (Reader.new PubSub.codec).observe PubSub.codec n as = .ok (ms.map .item)) ∨
       (∃ w t, tail = w :: t ∧ w ≠ 3 ∧
        ∀ as rest n, OpenAns as → dataOf as = bytes → ms.length + as.length + 1 ≤ n →
          (Reader.new PubSub.codec).observe PubSub.codec n (as ++ rest) = .ok (ms.map .item ++ [.err (.wireId w)]))) := by
  obtain ⟨ms, e, hd⟩ := Drains.exists PubSub.codec PubSub.inc PubSub.codec.init bytes
  obtain ⟨tail, h1, h2, h3, h4⟩ := hd.exact PubSub.exact
  refine ⟨ms, tail, h1, h2, ?_⟩
  cases e with
  | none =>
    left
    refine ⟨h3 rfl, ?_⟩
    intro as n ho hda hn
    obtain ⟨out, e1, -, e3⟩ := observe_open PubSub.inc n as ho (new_good _ PubSub.decode_nil)
      (ms := ms) (e := none) (by rw [hda]; exact hd)
    rw [e1, e3 hn]; simp [resultsOf]
  | some e =>
    right
    obtain ⟨w, t, ht, hw, rfl⟩ := h4 _ rfl
    refine ⟨w, t, ht, hw, ?_⟩
    intro as rest n ho hda hn
    exact observe_wire_error PubSub.inc as rest ho n (new_good _ PubSub.decode_nil) (by rw [hda]; exact hd) hn

/-- C68: what the encoders write is the format of the specification, for every message built from a payload below
4 GiB (and a topic of at most 65535 bytes). -/
theorem C68_encoders (id : UInt32) (ctype : UInt8) (payload : Bytes) (hlen : payload.length < 2 ^ 32)
    (now : UInt64) (seq : UInt32) (topic : Bytes) (ht : topic.length ≤ 65535) :
    ReqRep.encode (ReqRep.Message.new id ctype payload) = Spec.rrFrame (ReqRep.Message.new id ctype payload) ∧
    ∃ m, PubSub.Message.new now seq topic payload ctype = .ok m ∧ PubSub.encode m = Spec.psFrame m := by
  constructor
  · apply ReqRep.encode_spec
    simp [Spec.rrOk, ReqRep.Message.new]; omega
  · unfold PubSub.Message.new
    rw [if_pos ht]
    refine ⟨_, rfl, PubSub.encode_spec _ ?_⟩
    simp [Spec.psOk]
    omega

/-- A stream of two frames and the beginning of a third, and one with garbage behind a frame. -/
example :
    let m1 : ReqRep.Message := ⟨⟨0, 1, 2⟩, [7, 8]⟩
    let m2 : ReqRep.Message := ⟨⟨1, 2, 0⟩, []⟩
    Spec.rrFrame m1 = [2, 0, 0, 0, 0, 1, 0, 0, 0, 2, 7, 8] ∧ Spec.rrOk m1 ∧ Spec.rrOk m2 ∧
    Spec.Unfinished Spec.rrFrame Spec.rrOk [2, 0, 0] ∧
    (Reader.new ReqRep.codec).observe ReqRep.codec 9
        [.data [2, 0, 0, 0, 0, 1], .pending, .data [0, 0, 0, 2, 7, 8, 2, 1, 0, 0, 0, 2, 0, 0, 0], .data [0, 2, 0, 0]]
      = .ok [.item m1, .item m2] ∧
    (Reader.new ReqRep.codec).observe ReqRep.codec 9 [.data (Spec.rrFrame m1 ++ [9]), .data [2]]
      = .ok [.item m1, .err (.wireId 9)] := by
  refine ⟨by decide, by simp [Spec.rrOk], by simp [Spec.rrOk], ?_, by decide, by decide⟩
  exact ⟨⟨⟨0, 0, 0⟩, []⟩, [0, 0, 0, 0, 0, 0, 0], by simp [Spec.rrOk], by simp, by decide⟩

/-! ## C69 -/

/-- C69, request/reply (partial): when the peer closes the connection after some complete frames, the messages are
followed by a clean end of stream if nothing is missing, and by an error if the connection was closed inside a frame
— except when exactly the whole payload is missing: then the end looks clean (`C69_payload_missing_refuted`). -/
theorem C69_reqrep_close_partial (ms : List ReqRep.Message) (hms : ∀ m ∈ ms, Spec.rrOk m) (tail : Bytes)
    (ht : Spec.Unfinished Spec.rrFrame Spec.rrOk tail) (as rest : List ReadAns) (has : OpenAns as)
    (hda : dataOf as = ms.flatMap Spec.rrFrame ++ tail) (n : Nat) (hn : ms.length + as.length + 1 ≤ n) :
    (tail = [] ∨ Spec.PayloadMissing Spec.rrFrame Spec.rrOk ReqRep.Message.payload tail →
      (Reader.new ReqRep.codec).observe ReqRep.codec n (as ++ .data [] :: rest) = .ok (ms.map .item ++ [.ended])) ∧
    (¬ (tail = [] ∨ Spec.PayloadMissing Spec.rrFrame Spec.rrOk ReqRep.Message.payload tail) →
      (Reader.new ReqRep.codec).observe ReqRep.codec n (as ++ .data [] :: rest) = .ok (ms.map .item ++ [.err .io])) :=
  observe_cut ReqRep.inc ReqRep.decode_nil ReqRep.roundtrip ReqRep.leftover ms hms tail ht as rest has hda n hn

/-- C69, pub/sub (partial). Missing, as above: a frame of which exactly the whole payload is missing. -/
theorem C69_pubsub_close_partial (ms : List PubSub.Message) (hms : ∀ m ∈ ms, Spec.psOk m) (tail : Bytes)
    (ht : Spec.Unfinished Spec.psFrame Spec.psOk tail) (as rest : List ReadAns) (has : OpenAns as)
    (hda : dataOf as = ms.flatMap Spec.psFrame ++ tail) (n : Nat) (hn : ms.length + as.length + 1 ≤ n) :
    (tail = [] ∨ Spec.PayloadMissing Spec.psFrame Spec.psOk PubSub.Message.payload tail →
      (Reader.new PubSub.codec).observe PubSub.codec n (as ++ .data [] :: rest) = .ok (ms.map .item ++ [.ended])) ∧
    (¬ (tail = [] ∨ Spec.PayloadMissing Spec.psFrame Spec.psOk PubSub.Message.payload tail) →
      (Reader.new PubSub.codec).observe PubSub.codec n (as ++ .data [] :: rest) = .ok (ms.map .item ++ [.err .io])) :=
  observe_cut PubSub.inc PubSub.decode_nil PubSub.roundtrip PubSub.leftover ms hms tail ht as rest has hda n hn

/-- C69 (refuted as stated): a reply announcing five bytes of payload, cut before the first of them, ends the stream
as if nothing were missing; cut one byte later, it is an error. -/
theorem C69_payload_missing_refuted :
    (Reader.new ReqRep.codec).observe ReqRep.codec 9 [.data [2, 0, 0, 0, 0, 1, 0, 0, 0, 5], .data []] = .ok [.ended] ∧
    (Reader.new ReqRep.codec).observe ReqRep.codec 9 [.data [2, 0, 0, 0, 0, 1, 0, 0, 0, 5, 7], .data []]
      = .ok [.err .io] := by decide

/-- The hypotheses are met by a frame and a cut in the middle of the next header. -/
example :
    let m1 : ReqRep.Message := ⟨⟨0, 1, 2⟩, [7, 8]⟩
    let as : List ReadAns := [.data (Spec.rrFrame m1), .pending, .data [2, 0, 0]]
    Spec.rrOk m1 ∧ Spec.Unfinished Spec.rrFrame Spec.rrOk [2, 0, 0] ∧ OpenAns as ∧
    dataOf as = [m1].flatMap Spec.rrFrame ++ [2, 0, 0] ∧
    (Reader.new ReqRep.codec).observe ReqRep.codec 9 (as ++ [.data []]) = .ok [.item m1, .err .io] := by
  refine ⟨by simp [Spec.rrOk], ?_, by simp [OpenAns, Spec.rrFrame], by decide, by decide⟩
  exact ⟨⟨⟨0, 0, 0⟩, []⟩, [0, 0, 0, 0, 0, 0, 0], by simp [Spec.rrOk], by simp, by decide⟩

end MsgRs.Props
