import Verif.Proofs.Codecs
import Verif.Proofs.FramedAny
import Verif.Spec.Frames
/-!
# The decoders accept exactly the frames
-/
namespace MsgRs

theorem revInd {P : Bytes → Prop} (h0 : P []) (h1 : ∀ b x, P b → P (b ++ [x])) (b : Bytes) : P b := by
  rw [← List.reverse_reverse b]
  induction b.reverse with
  | nil => exact h0
  | cons x l ih => rw [List.reverse_cons]; exact h1 _ _ ih

theorem beNat_lt (b : Bytes) : beNat b < 256 ^ b.length := by
  induction b using revInd with
  | h0 => simp [beNat]
  | h1 b x ih =>
    rw [beNat_append]
    simp only [List.length_append, List.length_cons, List.length_nil, Nat.zero_add, Nat.pow_succ, Nat.pow_zero, Nat.one_mul]
    have h1 : beNat [x] = x.toNat := by simp [beNat]
    have h2 := x.toNat_lt
    rw [h1]
    have : (beNat b + 1) * 256 ≤ 256 ^ b.length * 256 := Nat.mul_le_mul_right _ ih
    omega

theorem beBytes_beNat (b : Bytes) : beBytes b.length (beNat b) = b := by
  induction b using revInd with
  | h0 => rfl
  | h1 b x ih =>
    rw [beNat_append]
    simp only [List.length_append, List.length_cons, List.length_nil, Nat.zero_add, Nat.pow_succ, Nat.pow_zero, Nat.one_mul, beBytes]
    have h1 : beNat [x] = x.toNat := by simp [beNat]
    have h2 := x.toNat_lt
    rw [h1]
    have h3 : (beNat b * 256 + x.toNat) / 256 = beNat b := by omega
    rw [h3, ih]
    congr 1
    congr 1
    apply UInt8.toNat_inj.mp
    simp

theorem put32_beNat {b : Bytes} (h : b.length = 4) : putU32 (UInt32.ofNat (beNat b)) = b := by
  have h1 := beNat_lt b
  rw [h] at h1
  unfold putU32
  have : (UInt32.ofNat (beNat b)).toNat = beNat b := by
    simp [UInt32.toNat_ofNat']; omega
  rw [this]
  have := beBytes_beNat b
  rwa [h] at this

theorem put64_beNat {b : Bytes} (h : b.length = 8) : putU64 (UInt64.ofNat (beNat b)) = b := by
  have h1 := beNat_lt b
  rw [h] at h1
  unfold putU64
  have : (UInt64.ofNat (beNat b)).toNat = beNat b := by
    simp [UInt64.toNat_ofNat']; omega
  rw [this]
  have := beBytes_beNat b
  rwa [h] at this

theorem put16_beNat {b : Bytes} (h : b.length = 2) : putU16 (UInt16.ofNat (beNat b)) = b := by
  have h1 := beNat_lt b
  rw [h] at h1
  unfold putU16
  have : (UInt16.ofNat (beNat b)).toNat = beNat b := by
    simp [UInt16.toNat_ofNat']; omega
  rw [this]
  have := beBytes_beNat b
  rwa [h] at this

theorem put16_spec (x : UInt16) : putU16 x = Spec.be16 x.toNat := rfl

theorem put32_spec (x : UInt32) : putU32 x = Spec.be32 x.toNat := by
  simp [putU32, beBytes, Spec.be32, Spec.be16, Nat.div_div_eq_div_mul]

theorem put64_spec (x : UInt64) : putU64 x = Spec.be64 x.toNat := by
  simp [putU64, beBytes, Spec.be64, Spec.be32, Spec.be16, Nat.div_div_eq_div_mul]

/-- The general shape: what the decoder reports from its initial state. -/
structure Codec.Exact (c : Codec σ ε μ) (frame : μ → Bytes) (ok : μ → Prop) (wid : UInt8) (werr : UInt8 → ε) : Prop where
  item : ∀ {b m s' b'}, c.decode c.init b = .ok (.item m, s', b') → b = frame m ++ b' ∧ ok m ∧ s' = c.init
  err : ∀ {b e s' b'}, c.decode c.init b = .ok (.err e, s', b') → ∃ w t, b = w :: t ∧ w ≠ wid ∧ e = werr w
  more : ∀ {b s' b'}, c.decode c.init b = .ok (.more, s', b') → Spec.Unfinished frame ok b

theorem Drains.exact {c : Codec σ ε μ} {frame : μ → Bytes} {ok : μ → Prop} {wid : UInt8} {werr : UInt8 → ε}
    (hx : c.Exact frame ok wid werr) {b ms e} (h : Drains c c.init b ms e) :
    ∃ tail, b = ms.flatMap frame ++ tail ∧ (∀ m ∈ ms, ok m) ∧
      (e = none → Spec.Unfinished frame ok tail) ∧
      ∀ e', e = some e' → ∃ w t, tail = w :: t ∧ w ≠ wid ∧ e' = werr w := by
  generalize hs : c.init = s at h
  induction h with
  | more hd => subst hs; exact ⟨_, rfl, by simp, fun _ => hx.more hd, by simp⟩
  | err hd => subst hs; exact ⟨_, rfl, by simp, by simp, fun e' he => by cases he; exact hx.err hd⟩
  | item hd _ ih =>
    subst hs
    obtain ⟨h1, h2, h3⟩ := hx.item hd
    obtain ⟨tail, h4, h5, h6⟩ := ih h3.symm
    refine ⟨tail, ?_, ?_, h6⟩
    · rw [h1, h4]; simp
    · intro m' hm
      rcases List.mem_cons.mp hm with rfl | hm
      · exact h2
      · exact h5 m' hm

/-- What is left in the buffer when an unfinished frame has been looked at. -/
structure Codec.Leftover (c : Codec σ ε μ) (frame : μ → Bytes) (ok : μ → Prop) (payload : μ → Bytes) : Prop where
  left : ∀ {b s' b'}, c.decode c.init b = .ok (.more, s', b') →
    (b' = [] ↔ b = [] ∨ Spec.PayloadMissing frame ok payload b)

theorem unfinished_more {c : Codec σ ε μ} (hc : c.Incremental) {frame : μ → Bytes} {ok : μ → Prop}
    (hrt : ∀ m x, ok m → c.decode c.init (frame m ++ x) = .ok (.item m, c.init, x)) {tail : Bytes}
    (h : Spec.Unfinished frame ok tail) : ∃ s' b', c.decode c.init tail = .ok (.more, s', b') := by
  obtain ⟨m, y, hm, hy, he⟩ := h
  have hd := hrt m [] hm
  rw [List.append_nil, ← he] at hd
  obtain ⟨⟨d, s', b'⟩, hr⟩ := hc.total c.init tail
  cases d with
  | more => exact ⟨s', b', hr⟩
  | err e =>
    obtain ⟨s'', b'', hx⟩ := hc.err_mono y hr
    rw [hd] at hx; cases hx
  | item m' =>
    have hx := hc.item_mono y hr
    rw [hd] at hx
    injection hx with hx
    have := (Prod.mk.inj (Prod.mk.inj hx).2).2
    simp only [List.nil_eq, List.append_eq_nil_iff] at this
    exact absurd this.2 hy

theorem drainsTo_tail {c : Codec σ ε μ} {frame : μ → Bytes} {ok : μ → Prop}
    (hrt : ∀ m x, ok m → c.decode c.init (frame m ++ x) = .ok (.item m, c.init, x)) (ms : List μ)
    (hms : ∀ m ∈ ms, ok m) {tail : Bytes} {s' b'} (ht : c.decode c.init tail = .ok (.more, s', b')) :
    DrainsTo c c.init (ms.flatMap frame ++ tail) ms s' b' := by
  induction ms with
  | nil => exact .more ht
  | cons m ms ih =>
    rw [List.flatMap_cons, List.append_assoc]
    exact .item (hrt m _ (hms m List.mem_cons_self)) (ih fun m hm => hms m (List.mem_cons_of_mem _ hm))

/-- Complete frames, an unfinished one, then end of file. -/
theorem observe_cut {c : Codec σ ε μ} (hc : c.Incremental) (h0 : c.decode c.init [] = .ok (.more, c.init, []))
    {frame : μ → Bytes} {ok : μ → Prop} {payload : μ → Bytes}
    (hrt : ∀ m x, ok m → c.decode c.init (frame m ++ x) = .ok (.item m, c.init, x))
    (hl : c.Leftover frame ok payload) (ms : List μ) (hms : ∀ m ∈ ms, ok m) (tail : Bytes)
    (ht : Spec.Unfinished frame ok tail) (as rest : List ReadAns) (has : OpenAns as)
    (hda : dataOf as = ms.flatMap frame ++ tail) (n : Nat) (hn : ms.length + as.length + 1 ≤ n) :
    (tail = [] ∨ Spec.PayloadMissing frame ok payload tail →
      (Reader.new c).observe c n (as ++ .data [] :: rest) = .ok (ms.map .item ++ [.ended])) ∧
    (¬ (tail = [] ∨ Spec.PayloadMissing frame ok payload tail) →
      (Reader.new c).observe c n (as ++ .data [] :: rest) = .ok (ms.map .item ++ [.err c.ioErr])) := by
  obtain ⟨s', b', hm⟩ := unfinished_more hc hrt ht
  have ho := observe_then_eof hc as rest has n (new_good c h0) (ms := ms) (s' := s') (b' := b')
    (by
      have := drainsTo_tail hrt ms hms hm
      rw [hda]; exact this) hn
  have hb := hl.left hm
  refine ⟨fun h => ?_, fun h => ?_⟩
  · rw [ho, if_pos (hb.mpr h)]
  · rw [ho, if_neg (fun h' => h (hb.mp h'))]

/-- A wire error is reported whatever comes after it. -/
theorem observe_wire_error {c : Codec σ ε μ} (h : c.Incremental) (as rest : List ReadAns)
    (has : OpenAns as) (n : Nat) {r : Reader σ} (hr : r.Good c) {ms e}
    (hd : Drains c r.st (r.buf ++ dataOf as) ms (some e))
    (hn : ms.length + as.length + 1 ≤ n) :
    r.observe c n (as ++ rest) = .ok (ms.map .item ++ [.err e]) := by
  induction n generalizing as r ms with
  | zero => omega
  | succ n ihn =>
    have inner : ∀ (as : List ReadAns), OpenAns as → ∀ {r : Reader σ}, r.Good c → ∀ {ms},
        Drains c r.st (r.buf ++ dataOf as) ms (some e) → ms.length + as.length + 1 ≤ n + 1 →
        r.observe c (n + 1) (as ++ rest) = .ok (ms.map .item ++ [.err e]) := by
      intro as
      induction as with
      | nil =>
        intro _ r hr ms hd hn
        rcases frame_good h hr hd with ⟨m, ms', r', rfl, hf, hg, hd'⟩ | ⟨e', r', rfl, he, hf⟩ | ⟨r', hf, hg, hread, hd'⟩
        · have hp : r.pollNext c ([] ++ rest) = .ok (.item m, r', [] ++ rest) := by
            rw [List.nil_append]
            cases rest <;> simp [Reader.pollNext, hf]
          have h2 := ihn [] (by simp [OpenAns]) hg hd' (by simp at hn ⊢; omega)
          simp only [Reader.observe, hp, R.bind_ok, h2]
          rfl
        · cases he
          have hp : r.pollNext c ([] ++ rest) = .ok (.err e, r', [] ++ rest) := by
            rw [List.nil_append]
            cases rest <;> simp [Reader.pollNext, hf]
          simp only [Reader.observe, hp, R.bind_ok]
          rfl
        · have := hd'.det (Drains.more (by simpa [dataOf] using hg.fix hread))
          cases this.2
      | cons a as ih =>
        intro has r hr ms hd hn
        have has' : OpenAns as := fun x hx => has x (List.mem_cons_of_mem _ hx)
        rcases frame_good h hr hd with ⟨m, ms', r', rfl, hf, hg, hd'⟩ | ⟨e', r', rfl, he, hf⟩ | ⟨r', hf, hg, hread, hd'⟩
        · have hp : r.pollNext c ((a :: as) ++ rest) = .ok (.item m, r', (a :: as) ++ rest) := by
            simp [Reader.pollNext, hf]
          have h2 := ihn (a :: as) has hg hd' (by simp at hn ⊢; omega)
          simp only [Reader.observe, hp, R.bind_ok, h2]
          rfl
        · cases he
          have hp : r.pollNext c ((a :: as) ++ rest) = .ok (.err e, r', (a :: as) ++ rest) := by
            simp [Reader.pollNext, hf]
          simp only [Reader.observe, hp, R.bind_ok]
          rfl
        · cases a with
          | err => exact absurd rfl (has .err (List.mem_cons_self ..)).1
          | pending =>
            have hp : r.pollNext c ((.pending :: as) ++ rest) = .ok (.pending, r', as ++ rest) := by
              simp [Reader.pollNext, hf]
            have h2 := ihn as has' hg (by simpa [dataOf] using hd') (by simp at hn ⊢; omega)
            simp only [Reader.observe, hp, R.bind_ok, h2]
          | data bs =>
            cases bs with
            | nil => exact absurd rfl (has (.data []) (List.mem_cons_self ..)).2
            | cons b bs =>
              have hg2 : Reader.Good c
                  { r' with buf := r'.buf ++ (b :: bs), eof := false, readable := true } :=
                ⟨rfl, hg.errored, by simp⟩
              have hp : r.pollNext c ((.data (b :: bs) :: as) ++ rest) =
                  Reader.pollNext c
                    { r' with buf := r'.buf ++ (b :: bs), eof := false, readable := true }
                    (as ++ rest) := by
                rw [List.cons_append, Reader.pollNext, hf]; rfl
              have hob : r.observe c (n + 1) ((.data (b :: bs) :: as) ++ rest) =
                  Reader.observe c (n + 1)
                    { r' with buf := r'.buf ++ (b :: bs), eof := false, readable := true }
                    (as ++ rest) := by
                simp only [Reader.observe, hp]
              rw [hob]
              exact ih has' hg2 (by simpa [dataOf] using hd') (by simp at hn ⊢; omega)
    exact inner as has hr hd hn

namespace ReqRep

theorem encode_spec (m : Message) (h : Spec.rrOk m) : encode m = Spec.rrFrame m := by
  have h' : m.header.size.toNat = m.payload.length := h
  simp [encode, Spec.rrFrame, put32_spec, h', WIRE_ID]

/-- A complete decode consumed exactly an encoding. -/
theorem decode_inv {b m s' b'} (h : decode .header b = .ok (.item m, s', b')) :
    b = encode m ++ b' ∧ m.WF ∧ s' = .header := by
  have h : decodeHeader b = _ := h
  rw [decodeHeader_eq] at h
  cases b with
  | nil => cases h
  | cons w t =>
    simp only at h
    split at h
    · cases h
    · rename_i hw
      split at h
      · cases h
      · rename_i hl
        rw [decodePayload_eq] at h
        split at h
        · cases h
        · rename_i hs
          cases h
          have hw : w = WIRE_ID := by simpa using hw
          subst hw
          obtain ⟨a, t, rfl, hl⟩ := length_ge_cons (n := 8) (l := t) (by omega)
          refine ⟨?_, ?_, rfl⟩
          · simp only [encode, List.headD_cons, List.drop_succ_cons, List.drop_zero] at hs ⊢
            rw [put32_beNat (by simp; omega), put32_beNat (by simp; omega)]
            simp only [List.append_assoc, List.cons_append, List.nil_append, List.take_append_drop]
            congr 2
            have : t.drop 8 = (t.drop 4).drop 4 := by simp
            rw [this, List.take_append_drop, List.take_append_drop]
          · simp only [Message.WF, List.length_take]
            exact (Nat.min_eq_left (by simpa using hs)).symm

/-- Bytes that can be completed to a frame. -/
def Compl (b : Bytes) : Prop := ∃ y m, decode .header (b ++ y) = .ok (.item m, .header, [])

theorem Compl.of {b : Bytes} (z : Bytes) (h : Compl (b ++ z)) : Compl b := by
  obtain ⟨y, m, h⟩ := h
  exact ⟨z ++ y, m, by rw [← List.append_assoc]; exact h⟩

theorem compl_long (t : Bytes) (h : ¬ t.length < 9)
    (hs : (t.drop 9).length ≤ (UInt32.ofNat (beNat ((t.drop 5).take 4))).toNat) : Compl (WIRE_ID :: t) := by
  refine ⟨List.replicate ((UInt32.ofNat (beNat ((t.drop 5).take 4))).toNat - (t.drop 9).length) 0, ?_⟩
  suffices ∃ m, decodeHeader (WIRE_ID :: t ++ List.replicate ((UInt32.ofNat (beNat ((t.drop 5).take 4))).toNat - (t.drop 9).length) 0)
      = .ok (.item m, .header, []) from this
  rw [List.cons_append, decodeHeader_eq]
  simp only [ne_eq, not_true_eq_false, if_false]
  rw [if_neg (by simp; omega), PubSub.take_drop_append (by omega), PubSub.take_drop_append (by omega),
    List.drop_append_of_le_length (by omega), decodePayload_eq]
  simp only
  rw [if_neg (by simp at hs ⊢; omega)]
  have hd : ∀ (l : Bytes) (n : Nat), l.length = n → l.drop n = [] := fun l n h => by simp [h]
  refine ⟨_, congrArg (fun l => R.ok (Dec.item _, State.header, l)) (hd _ _ ?_)⟩
  rw [List.length_append, List.length_replicate]
  omega

theorem compl_more {b s' b'} (h : decode .header b = .ok (.more, s', b')) : Compl b := by
  have h : decodeHeader b = _ := h
  rw [decodeHeader_eq] at h
  -- any bytes shorter than the header
  have short : ∀ t : Bytes, t.length ≤ 9 → Compl (WIRE_ID :: t) := by
    intro t ht
    apply Compl.of (List.replicate (9 - t.length) 0)
    rw [List.cons_append]
    refine compl_long _ (by simp; omega) ?_
    have : ((t ++ List.replicate (9 - t.length) 0).drop 9).length = 0 := by simp; omega
    omega
  cases b with
  | nil => exact Compl.of [WIRE_ID] (short [] (by simp))
  | cons w t =>
    simp only at h
    split at h
    · cases h
    · rename_i hw
      have hw : w = WIRE_ID := by simpa using hw
      subst hw
      split at h
      · rename_i hl
        exact short t (by omega)
      · rename_i hl
        rw [decodePayload_eq] at h
        split at h
        · rename_i hs
          exact compl_long t hl (by simp only at hs; omega)
        · cases h

theorem exact : codec.Exact Spec.rrFrame Spec.rrOk 2 .wireId where
  item := by
    intro b m s' b' h
    obtain ⟨h1, h2, h3⟩ := decode_inv h
    exact ⟨by rw [h1, encode_spec m h2], h2, h3⟩
  err := by
    intro b e s' b' h
    have h : decodeHeader b = _ := h
    rw [decodeHeader_eq] at h
    cases b with
    | nil => cases h
    | cons w t =>
      simp only at h
      split at h
      · rename_i hw
        cases h
        exact ⟨w, t, rfl, hw, rfl⟩
      · split at h
        · cases h
        · exact absurd h decodePayload_not_err
  more := by
    intro b s' b' h
    obtain ⟨y, m, hc⟩ := compl_more h
    obtain ⟨h1, h2, -⟩ := decode_inv hc
    refine ⟨m, y, h2, ?_, ?_⟩
    · rintro rfl
      rw [List.append_nil] at hc
      have h : decode .header b = _ := h
      rw [h] at hc; cases hc
    · rw [h1, List.append_nil, encode_spec m h2]

theorem roundtrip (m : Message) (x : Bytes) (h : Spec.rrOk m) :
    codec.decode codec.init (Spec.rrFrame m ++ x) = .ok (.item m, codec.init, x) := by
  rw [← encode_spec m h]; exact decode_encode m x h

theorem leftover : codec.Leftover Spec.rrFrame Spec.rrOk Message.payload where
  left := by
    intro b s' b' h
    have hu := exact.more h
    have h : decodeHeader b = _ := h
    rw [decodeHeader_eq] at h
    cases b with
    | nil => cases h; simp
    | cons w t =>
      have hlen : ∀ m : Message, (Spec.rrFrame m).length = 10 + m.payload.length := by
        intro m; simp [Spec.rrFrame, Spec.be32, Spec.be16]; omega
      simp only at h
      split at h
      · cases h
      · rename_i hw
        have hw : w = WIRE_ID := by simpa using hw
        subst hw
        split at h
        · rename_i hl
          cases h
          constructor
          · intro h; cases h
          · rintro (h | ⟨m, h1, h2, h3⟩)
            · cases h
            · have := congrArg List.length h3
              rw [hlen] at this
              simp at this; omega
        · rename_i hl
          rw [decodePayload_eq] at h
          split at h
          · rename_i hs
            cases h
            have hb : t.drop 9 = [] ↔ t.length = 9 := by
              rw [List.drop_eq_nil_iff]; omega
            rw [hb]
            constructor
            · intro h9
              right
              obtain ⟨m, y, h1, h2, h3⟩ := hu
              have hy : y = m.payload := by
                have h4 : (WIRE_ID :: t) ++ y = ([2, m.header.ctype] ++ Spec.be32 m.header.id.toNat ++ Spec.be32 m.payload.length) ++ m.payload := h3
                refine (List.append_inj h4 ?_).2
                simp [Spec.be32, Spec.be16, h9]
              subst hy
              exact ⟨m, h1, h2, h3⟩
            · rintro (h | ⟨m, h1, h2, h3⟩)
              · cases h
              · have := congrArg List.length h3
                rw [hlen] at this
                simp at this; omega
          · cases h

end ReqRep

namespace PubSub

theorem encode_spec (m : Message) (h : Spec.psOk m) : encode m = Spec.psFrame m := by
  obtain ⟨h1, h2⟩ := h
  simp [encode, Spec.psFrame, put32_spec, put16_spec, put64_spec, h1, h2, WIRE_ID]

theorem decode_inv {b m s' b'} (h : decode .header b = .ok (.item m, s', b')) :
    b = encode m ++ b' ∧ m.WF ∧ s' = .header := by
  have h : decodeHeader b = _ := h
  rw [decodeHeader_eq] at h
  cases b with
  | nil => cases h
  | cons w t =>
    simp only at h
    split at h
    · cases h
    · rename_i hw
      split at h
      · cases h
      · rename_i hl
        split at h
        · cases h
        · rename_i hl2
          rw [decodePayload_eq] at h
          split at h
          · cases h
          · rename_i hs
            cases h
            have hw : w = WIRE_ID := by simpa using hw
            subst hw
            obtain ⟨a, t, rfl, hl⟩ := length_ge_cons (n := 2) (l := t) (by omega)
            obtain ⟨x, t, rfl, hl⟩ := length_ge_cons (n := 1) (l := t) (by omega)
            obtain ⟨y, t, rfl, hl⟩ := length_ge_cons (n := 0) (l := t) (by omega)
            have et : tlen (a :: x :: y :: t) = UInt16.ofNat (beNat [x, y]) := rfl
            refine ⟨?_, ?_, rfl⟩
            · simp only [encode, hdrOf] at hs ⊢
              have e1 : putU16 (tlen (a :: x :: y :: t)) = [x, y] := by rw [et]; exact put16_beNat rfl
              rw [e1]
              generalize (tlen (a :: x :: y :: t)).toNat = n at *
              have q1 : 3 + n = n + 1 + 1 + 1 := by omega
              have q2 : 11 + n = (n + 8) + 1 + 1 + 1 := by omega
              have q3 : 15 + n = (n + 12) + 1 + 1 + 1 := by omega
              have q4 : 19 + n = (n + 16) + 1 + 1 + 1 := by omega
              rw [q1, q2, q3, q4] at *
              simp only [List.drop_succ_cons, List.drop_zero, List.headD_cons, List.length_cons] at hs hl2 ⊢
              rw [put64_beNat (by simp; omega), put32_beNat (by simp; omega), put32_beNat (by simp; omega)]
              simp only [List.append_assoc, List.cons_append, List.nil_append, List.take_append_drop]
              congr 4
              have r3 : t.drop (n + 16) = (t.drop (n + 12)).drop 4 := by simp
              have r2 : t.drop (n + 12) = (t.drop (n + 8)).drop 4 := by simp
              have r1 : t.drop (n + 8) = (t.drop n).drop 8 := by simp
              rw [r3, List.take_append_drop, r2, List.take_append_drop, r1, List.take_append_drop, List.take_append_drop]
            · simp only [Message.WF, hdrOf, List.length_take, List.length_drop] at hs hl2 ⊢
              omega

/-- Bytes that can be completed to a frame. -/
def Compl (b : Bytes) : Prop := ∃ y m, decode .header (b ++ y) = .ok (.item m, .header, [])

theorem Compl.of {b : Bytes} (z : Bytes) (h : Compl (b ++ z)) : Compl b := by
  obtain ⟨y, m, h⟩ := h
  exact ⟨z ++ y, m, by rw [← List.append_assoc]; exact h⟩

theorem compl_long (t : Bytes) (h : ¬ t.length < 3) (h2 : ¬ t.length < 19 + (tlen t).toNat)
    (hs : (t.drop (19 + (tlen t).toNat)).length ≤ (hdrOf t).size.toNat) : Compl (WIRE_ID :: t) := by
  refine ⟨List.replicate ((hdrOf t).size.toNat - (t.drop (19 + (tlen t).toNat)).length) 0, ?_⟩
  suffices ∃ m, decodeHeader (WIRE_ID :: t ++ List.replicate ((hdrOf t).size.toNat - (t.drop (19 + (tlen t).toNat)).length) 0)
      = .ok (.item m, .header, []) from this
  rw [List.cons_append, decodeHeader_eq]
  simp only [ne_eq, not_true_eq_false, if_false]
  rw [if_neg (by simp; omega), tlen_append h, hdrOf_append h h2, if_neg (by simp; omega),
    List.drop_append_of_le_length (by omega), decodePayload_eq, if_neg (by simp at hs ⊢; omega)]
  have hd : ∀ (l : Bytes) (n : Nat), l.length = n → l.drop n = [] := fun l n h => by simp [h]
  refine ⟨_, congrArg (fun l => R.ok (Dec.item _, State.header, l)) (hd _ _ ?_)⟩
  rw [List.length_append, List.length_replicate]
  omega

theorem compl_more {b s' b'} (h : decode .header b = .ok (.more, s', b')) : Compl b := by
  have h : decodeHeader b = _ := h
  rw [decodeHeader_eq] at h
  have mid : ∀ t : Bytes, ¬ t.length < 3 → t.length ≤ 19 + (tlen t).toNat → Compl (WIRE_ID :: t) := by
    intro t h3 ht
    apply Compl.of (List.replicate (19 + (tlen t).toNat - t.length) 0)
    rw [List.cons_append]
    have e1 := tlen_append (x := List.replicate (19 + (tlen t).toNat - t.length) 0) h3
    refine compl_long _ (by simp; omega) (by rw [e1]; simp; omega) ?_
    rw [e1]
    have : ((t ++ List.replicate (19 + (tlen t).toNat - t.length) 0).drop (19 + (tlen t).toNat)).length = 0 := by
      simp; omega
    omega
  have short : ∀ t : Bytes, t.length ≤ 3 → Compl (WIRE_ID :: t) := by
    intro t ht
    apply Compl.of (List.replicate (3 - t.length) 0)
    rw [List.cons_append]
    exact mid _ (by simp; omega) (by simp; omega)
  cases b with
  | nil => exact Compl.of [WIRE_ID] (short [] (by simp))
  | cons w t =>
    simp only at h
    split at h
    · cases h
    · rename_i hw
      have hw : w = WIRE_ID := by simpa using hw
      subst hw
      split at h
      · rename_i hl
        exact short t (by omega)
      · rename_i hl
        split at h
        · exact mid t hl (by omega)
        · rename_i hl2
          rw [decodePayload_eq] at h
          split at h
          · rename_i hs
            exact compl_long t hl hl2 (by omega)
          · cases h

theorem exact : codec.Exact Spec.psFrame Spec.psOk 3 .wireId where
  item := by
    intro b m s' b' h
    obtain ⟨h1, h2, h3⟩ := decode_inv h
    exact ⟨by rw [h1, encode_spec m h2], h2, h3⟩
  err := by
    intro b e s' b' h
    have h : decodeHeader b = _ := h
    rw [decodeHeader_eq] at h
    cases b with
    | nil => cases h
    | cons w t =>
      simp only at h
      split at h
      · rename_i hw
        cases h
        exact ⟨w, t, rfl, hw, rfl⟩
      · split at h
        · cases h
        · split at h
          · cases h
          · exact absurd h decodePayload_not_err
  more := by
    intro b s' b' h
    obtain ⟨y, m, hc⟩ := compl_more h
    obtain ⟨h1, h2, -⟩ := decode_inv hc
    refine ⟨m, y, h2, ?_, ?_⟩
    · rintro rfl
      rw [List.append_nil] at hc
      have h : decode .header b = _ := h
      rw [h] at hc; cases hc
    · rw [h1, List.append_nil, encode_spec m h2]

theorem roundtrip (m : Message) (x : Bytes) (h : Spec.psOk m) :
    codec.decode codec.init (Spec.psFrame m ++ x) = .ok (.item m, codec.init, x) := by
  rw [← encode_spec m h]; exact decode_encode m x h

theorem leftover : codec.Leftover Spec.psFrame Spec.psOk Message.payload where
  left := by
    intro b s' b' h
    have hu := exact.more h
    have h : decodeHeader b = _ := h
    rw [decodeHeader_eq] at h
    have hlen : ∀ m : Message, (Spec.psFrame m).length = 20 + m.header.topic.length + m.payload.length := by
      intro m; simp [Spec.psFrame, Spec.be64, Spec.be32, Spec.be16]; omega
    -- the topic length is in the first four bytes
    have htl : ∀ (m : Message) (t y : Bytes), Spec.psOk m → ¬ t.length < 3 → (WIRE_ID :: t) ++ y = Spec.psFrame m →
        (tlen t).toNat = m.header.topic.length := by
      intro m t y hm h3 he
      obtain ⟨a, t, rfl, hl⟩ := length_ge_cons (n := 2) (l := t) (by omega)
      obtain ⟨x, t, rfl, hl⟩ := length_ge_cons (n := 1) (l := t) (by omega)
      obtain ⟨z, t, rfl, hl⟩ := length_ge_cons (n := 0) (l := t) (by omega)
      have et : tlen (a :: x :: z :: t) = UInt16.ofNat (beNat [x, z]) := rfl
      rw [← encode_spec m hm] at he
      have e2 : putU16 m.header.topicSize = [x, z] := by
        have : (WIRE_ID :: a :: [x, z]) ++ (t ++ y) = (WIRE_ID :: m.header.ctype :: putU16 m.header.topicSize) ++
            (m.header.topic ++ putU64 m.header.timestamp ++ putU32 m.header.seq ++ putU32 m.header.size ++ m.payload) := by
          simpa [encode] using he
        have := (List.append_inj this (by simp)).1
        injection this with _ this
        injection this with _ this
        exact this.symm
      rw [et, ← e2, beNat_putU16, hm.1]
    cases b with
    | nil => cases h; simp
    | cons w t =>
      simp only at h
      split at h
      · cases h
      · rename_i hw
        have hw : w = WIRE_ID := by simpa using hw
        subst hw
        split at h
        · rename_i hl
          cases h
          constructor
          · intro h; cases h
          · rintro (h | ⟨m, h1, h2, h3⟩)
            · cases h
            · have := congrArg List.length h3
              rw [hlen] at this
              simp at this; omega
        · rename_i hl
          split at h
          · rename_i hl2
            cases h
            constructor
            · intro h; cases h
            · rintro (h | ⟨m, h1, h2, h3⟩)
              · cases h
              · have := congrArg List.length h3
                rw [hlen, ← htl m t _ h1 hl h3] at this
                simp at this; omega
          · rename_i hl2
            rw [decodePayload_eq] at h
            split at h
            · rename_i hs
              cases h
              have hb : t.drop (19 + (tlen t).toNat) = [] ↔ t.length = 19 + (tlen t).toNat := by
                rw [List.drop_eq_nil_iff]; omega
              rw [hb]
              constructor
              · intro h9
                right
                obtain ⟨m, y, h1, h2, h3⟩ := hu
                have hy : y = m.payload := by
                  have h4 : (WIRE_ID :: t) ++ y = ([3, m.header.ctype] ++ Spec.be16 m.header.topic.length ++ m.header.topic ++ Spec.be64 m.header.timestamp.toNat ++
                      Spec.be32 m.header.seq.toNat ++ Spec.be32 m.payload.length) ++ m.payload := h3
                  refine (List.append_inj h4 ?_).2
                  rw [List.length_cons, h9, htl m t y h1 hl h3]
                  simp [Spec.be64, Spec.be32, Spec.be16]
                  omega
                subst hy
                exact ⟨m, h1, h2, h3⟩
              · rintro (h | ⟨m, h1, h2, h3⟩)
                · cases h
                · have := congrArg List.length h3
                  rw [hlen, ← htl m t _ h1 hl h3] at this
                  simp at this; omega
            · cases h

end PubSub
end MsgRs
