import Verif.Proofs.Framed
namespace MsgRs

theorem length_ge_cons {α} {n : Nat} {l : List α} (h : n + 1 ≤ l.length) :
    ∃ a t, l = a :: t ∧ n ≤ t.length := by
  cases l with
  | nil => simp at h
  | cons a t => exact ⟨a, t, rfl, by simpa using h⟩

namespace ReqRep

/-- Closed form of the header arm. -/
theorem decodeHeader_eq (src : Bytes) : decodeHeader src =
    match src with
    | [] => .ok (.more, .header, [])
    | w :: t =>
      if w ≠ WIRE_ID then .ok (.err (.wireId w), .header, w :: t)
      else if t.length < 9 then .ok (.more, .header, w :: t)
      else decodePayload
        { ctype := t.headD 0
          id := UInt32.ofNat (beNat ((t.drop 1).take 4))
          size := UInt32.ofNat (beNat ((t.drop 5).take 4)) } (t.drop 9) := by
  cases src with
  | nil => rfl
  | cons w t =>
    simp only [decodeHeader, List.isEmpty_cons, Bool.false_eq_true, if_false, rget_cons_zero,
      R.bind_ok, R.pure_eq]
    by_cases hw : w = WIRE_ID
    · simp only [hw, ne_eq, not_true_eq_false, if_false]
      cases t with
      | nil => simp
      | cons c t =>
        have e1 : ¬ ((WIRE_ID :: c :: t).length < 1 + 1) := by simp
        rw [if_neg e1]
        have e2 : rget (WIRE_ID :: c :: t) 1 = .ok c := by simp
        rw [e2, R.bind_ok]
        by_cases hl : t.length < 8
        · rw [if_pos (by simp; omega), if_pos (by simp; omega)]
        · rw [if_neg (by simp; omega), if_neg (by simp; omega)]
          rw [advance_ok (by simp), R.bind_ok]
          simp only [List.drop_succ_cons, List.drop_zero, List.headD_cons]
          rw [getU32_ok (by omega), R.bind_ok]
          simp only
          rw [getU32_ok (by simp; omega), R.bind_ok]
          simp
    · simp [hw]

theorem decodePayload_eq (h : Header) (src : Bytes) : decodePayload h src =
    if src.length < h.size.toNat then .ok (.more, .payload h, src)
    else .ok (.item { header := h, payload := src.take h.size.toNat }, .header,
      src.drop h.size.toNat) := by
  unfold decodePayload
  split
  · rfl
  · rw [splitTo_ok (by omega)]; rfl

theorem decodePayload_item_mono {h src m s' b'} (x : Bytes)
    (hd : decodePayload h src = .ok (.item m, s', b')) :
    decodePayload h (src ++ x) = .ok (.item m, s', b' ++ x) := by
  rw [decodePayload_eq] at hd ⊢
  split at hd
  · simp at hd
  · rename_i hl
    rw [if_neg (by simp; omega), List.take_append_of_le_length (by omega),
      List.drop_append_of_le_length (by omega)]
    cases hd; rfl

theorem decodePayload_more {h src s' b'}
    (hd : decodePayload h src = .ok (.more, s', b')) : s' = .payload h ∧ b' = src := by
  rw [decodePayload_eq] at hd
  split at hd <;> cases hd
  exact ⟨rfl, rfl⟩

theorem decodePayload_not_err {h src e s' b'} :
    decodePayload h src ≠ .ok (.err e, s', b') := by
  rw [decodePayload_eq]; split <;> simp

theorem drop_append_hdr {t x : Bytes} (h : ¬ t.length < 9) :
    (t ++ x).headD 0 = t.headD 0 ∧ ((t ++ x).drop 1).take 4 = (t.drop 1).take 4 ∧
    ((t ++ x).drop 5).take 4 = (t.drop 5).take 4 ∧ (t ++ x).drop 9 = t.drop 9 ++ x := by
  refine ⟨?_, ?_, ?_, ?_⟩
  · cases t with
    | nil => simp at h
    | cons => rfl
  · rw [List.drop_append_of_le_length (by omega), List.take_append_of_le_length (by simp; omega)]
  · rw [List.drop_append_of_le_length (by omega), List.take_append_of_le_length (by simp; omega)]
  · rw [List.drop_append_of_le_length (by omega)]

/-- Measure for termination of repeated decoding. -/
def meas : State → Bytes → Nat
  | .header, b => 2 * b.length
  | .payload _, b => 2 * b.length + 1

theorem decodePayload_meas {h src m s' b'} (hd : decodePayload h src = .ok (.item m, s', b')) :
    meas s' b' < 2 * src.length + 1 := by
  rw [decodePayload_eq] at hd
  split at hd <;> cases hd
  simp [meas]; omega

theorem inc : codec.Incremental where
  total := by
    intro s b
    cases s with
    | header =>
      show ∃ r, decodeHeader b = .ok r
      rw [decodeHeader_eq]
      cases b with
      | nil => exact ⟨_, rfl⟩
      | cons w t =>
        simp only
        split
        · exact ⟨_, rfl⟩
        · split
          · exact ⟨_, rfl⟩
          · rw [decodePayload_eq]; split <;> exact ⟨_, rfl⟩
    | payload h =>
      show ∃ r, decodePayload h b = .ok r
      rw [decodePayload_eq]; split <;> exact ⟨_, rfl⟩
  item_mono := by
    intro s b m s' b' x hd
    cases s with
    | payload h => exact decodePayload_item_mono x hd
    | header =>
      change decodeHeader b = _ at hd
      show decodeHeader (b ++ x) = _
      rw [decodeHeader_eq] at hd ⊢
      cases b with
      | nil => simp at hd
      | cons w t =>
        simp only [List.cons_append] at hd ⊢
        split at hd
        · simp at hd
        · rename_i hw
          rw [if_neg hw]
          split at hd
          · simp at hd
          · rename_i hl
            obtain ⟨h1, h2, h3, h4⟩ := drop_append_hdr (x := x) hl
            rw [if_neg (by simp; omega), h1, h2, h3, h4]
            exact decodePayload_item_mono x hd
  err_mono := by
    intro s b e s' b' x hd
    cases s with
    | payload h => exact absurd hd decodePayload_not_err
    | header =>
      change decodeHeader b = _ at hd
      show ∃ s'' b'', decodeHeader (b ++ x) = _
      rw [decodeHeader_eq] at hd ⊢
      cases b with
      | nil => simp at hd
      | cons w t =>
        simp only [List.cons_append] at hd ⊢
        split at hd
        · rename_i hw
          rw [if_pos hw]; cases hd; exact ⟨_, _, rfl⟩
        · split at hd
          · simp at hd
          · exact absurd hd decodePayload_not_err
  more_resume := by
    intro s b s' b' x hd
    cases s with
    | payload h => obtain ⟨rfl, rfl⟩ := decodePayload_more hd; rfl
    | header =>
      change decodeHeader b = _ at hd
      show decodeHeader (b ++ x) = decode s' (b' ++ x)
      rw [decodeHeader_eq] at hd
      cases b with
      | nil => cases hd; rfl
      | cons w t =>
        simp only at hd
        split at hd
        · simp at hd
        · rename_i hw
          split at hd
          · cases hd; rfl
          · rename_i hl
            obtain ⟨rfl, rfl⟩ := decodePayload_more hd
            obtain ⟨h1, h2, h3, h4⟩ := drop_append_hdr (x := x) hl
            rw [decodeHeader_eq]
            simp only [List.cons_append]
            rw [if_neg hw, if_neg (by simp; omega), h1, h2, h3, h4]
            rfl
  decr := by
    refine ⟨meas, ?_⟩
    intro s b m s' b' hd
    cases s with
    | payload h => exact decodePayload_meas hd
    | header =>
      change decodeHeader b = _ at hd
      rw [decodeHeader_eq] at hd
      cases b with
      | nil => simp at hd
      | cons w t =>
        simp only at hd
        split at hd
        · simp at hd
        · split at hd
          · simp at hd
          · have := decodePayload_meas hd
            simp only [List.length_drop] at this
            show meas s' b' < 2 * (t.length + 1)
            omega

/-- Messages whose size field is the payload length. -/
def Message.WF (m : Message) : Prop := m.header.size.toNat = m.payload.length

theorem decode_encode (m : Message) (x : Bytes) (h : m.WF) :
    decode .header (encode m ++ x) = .ok (.item m, .header, x) := by
  show decodeHeader _ = _
  have h' : m.header.size.toNat = m.payload.length := h
  have he : encode m ++ x = WIRE_ID :: m.header.ctype :: (putU32 m.header.id ++
      putU32 m.header.size ++ m.payload ++ x) := by simp [encode]
  rw [he]
  simp only [decodeHeader, List.isEmpty_cons,
    Bool.false_eq_true, if_false, rget_cons_zero, R.bind_ok, ne_eq, not_true_eq_false]
  rw [if_neg (by simp)]
  have e1 : ∀ t : Bytes, rget (WIRE_ID :: m.header.ctype :: t) 1 = .ok m.header.ctype := by
    intro t; simp
  rw [e1, R.bind_ok, if_neg (by simp; omega), advance_ok (by simp)]
  simp only [R.bind_ok, List.drop_succ_cons, List.drop_zero, List.append_assoc]
  rw [getU32_put]
  simp only [R.bind_ok]
  rw [getU32_put]
  simp only [R.bind_ok]
  rw [decodePayload_eq, if_neg (by simp; omega)]
  simp [h']

theorem decode_nil : codec.decode codec.init [] = .ok (.more, codec.init, []) := rfl

end ReqRep

namespace PubSub

theorem decodePayload_eq (h : Header) (src : Bytes) : decodePayload h src =
    if src.length < h.size.toNat then .ok (.more, .payload h, src)
    else .ok (.item { header := h, payload := src.take h.size.toNat }, .header,
      src.drop h.size.toNat) := by
  unfold decodePayload
  split
  · rfl
  · rw [splitTo_ok (by omega)]; rfl

theorem decodePayload_item_mono {h src m s' b'} (x : Bytes)
    (hd : decodePayload h src = .ok (.item m, s', b')) :
    decodePayload h (src ++ x) = .ok (.item m, s', b' ++ x) := by
  rw [decodePayload_eq] at hd ⊢
  split at hd
  · simp at hd
  · rename_i hl
    rw [if_neg (by simp; omega), List.take_append_of_le_length (by omega),
      List.drop_append_of_le_length (by omega)]
    cases hd; rfl

theorem decodePayload_more {h src s' b'}
    (hd : decodePayload h src = .ok (.more, s', b')) : s' = .payload h ∧ b' = src := by
  rw [decodePayload_eq] at hd
  split at hd <;> cases hd
  exact ⟨rfl, rfl⟩

theorem decodePayload_not_err {h src e s' b'} :
    decodePayload h src ≠ .ok (.err e, s', b') := by
  rw [decodePayload_eq]; split <;> simp

/-- The topic length announced by the bytes after wire id and compression type. -/
def tlen (t : Bytes) : UInt16 := UInt16.ofNat (beNat [t.getD 1 0, t.getD 2 0])

/-- The header built from the bytes `t` after the wire id. -/
def hdrOf (t : Bytes) : Header :=
  let n := (tlen t).toNat
  { ctype := t.headD 0
    topicSize := tlen t
    topic := (t.drop 3).take n
    timestamp := UInt64.ofNat (beNat ((t.drop (3 + n)).take 8))
    seq := UInt32.ofNat (beNat ((t.drop (11 + n)).take 4))
    size := UInt32.ofNat (beNat ((t.drop (15 + n)).take 4)) }

/-- Closed form of the header arm. -/
theorem decodeHeader_eq (src : Bytes) : decodeHeader src =
    match src with
    | [] => .ok (.more, .header, [])
    | w :: t =>
      if w ≠ WIRE_ID then .ok (.err (.wireId w), .header, w :: t)
      else if t.length < 3 then .ok (.more, .header, w :: t)
      else if t.length < 19 + (tlen t).toNat then .ok (.more, .header, w :: t)
      else decodePayload (hdrOf t) (t.drop (19 + (tlen t).toNat)) := by
  cases src with
  | nil => rfl
  | cons w t =>
    simp only [decodeHeader, List.isEmpty_cons, Bool.false_eq_true, if_false, rget_cons_zero,
      R.bind_ok, R.pure_eq]
    by_cases hw : w = WIRE_ID
    · simp only [hw, ne_eq, not_true_eq_false, if_false]
      by_cases h1 : t.length < 1
      · rw [if_pos (by simp; omega), if_pos (by omega)]
      · obtain ⟨c, t, rfl, -⟩ := length_ge_cons (n := 0) (l := t) (by omega)
        rw [if_neg (by simp)]
        have e2 : rget (WIRE_ID :: c :: t) 1 = .ok c := by simp
        rw [e2, R.bind_ok]
        by_cases hl : t.length < 2
        · rw [if_pos (by simp; omega), if_pos (by simp; omega)]
        · rw [if_neg (by simp; omega), if_neg (by simp; omega)]
          obtain ⟨a, t, rfl, hl⟩ := length_ge_cons (n := 1) (l := t) (by omega)
          obtain ⟨b, t, rfl, hl⟩ := length_ge_cons (n := 0) (l := t) (by omega)
          have e3 : rget (WIRE_ID :: c :: a :: b :: t) 2 = .ok a := by simp
          have e4 : rget (WIRE_ID :: c :: a :: b :: t) 3 = .ok b := by simp
          rw [e3, R.bind_ok, e4, R.bind_ok]
          have et : tlen (c :: a :: b :: t) = UInt16.ofNat (beNat [a, b]) := rfl
          rw [et]
          simp only [hdrOf, et]
          generalize UInt16.ofNat (beNat [a, b]) = n
          by_cases h2 : t.length < n.toNat + 16
          · rw [if_pos (by simp; omega), if_pos (by simp; omega)]
          · rw [if_neg (by simp; omega), if_neg (by simp; omega)]
            rw [advance_ok (by simp), R.bind_ok]
            simp only [List.drop_succ_cons, List.drop_zero, List.headD_cons]
            rw [splitTo_ok (by omega), R.bind_ok]
            simp only
            rw [getU64_ok (by simp; omega), R.bind_ok]
            simp only
            rw [getU32_ok (by simp; omega), R.bind_ok]
            simp only
            rw [getU32_ok (by simp; omega), R.bind_ok]
            simp only [List.drop_drop]
            have q1 : 3 + n.toNat = (n.toNat) + 1 + 1 + 1 := by omega
            have q2 : 11 + n.toNat = (n.toNat + 8) + 1 + 1 + 1 := by omega
            have q3 : 15 + n.toNat = (n.toNat + (8 + 4)) + 1 + 1 + 1 := by omega
            have q4 : 19 + n.toNat = (n.toNat + (8 + (4 + 4))) + 1 + 1 + 1 := by omega
            rw [q1, q2, q3, q4]
            simp [Nat.add_assoc]
    · simp [hw]

theorem tlen_append {t x : Bytes} (h : ¬ t.length < 3) : tlen (t ++ x) = tlen t := by
  obtain ⟨a, t, rfl, h⟩ := length_ge_cons (n := 2) (l := t) (by omega)
  obtain ⟨b, t, rfl, h⟩ := length_ge_cons (n := 1) (l := t) (by omega)
  obtain ⟨c, t, rfl, h⟩ := length_ge_cons (n := 0) (l := t) (by omega)
  rfl

theorem take_drop_append {t x : Bytes} {i k : Nat} (h : i + k ≤ t.length) :
    ((t ++ x).drop i).take k = (t.drop i).take k := by
  rw [List.drop_append_of_le_length (by omega), List.take_append_of_le_length (by simp; omega)]

theorem hdrOf_append {t x : Bytes} (h3 : ¬ t.length < 3) (h : ¬ t.length < 19 + (tlen t).toNat) :
    hdrOf (t ++ x) = hdrOf t := by
  unfold hdrOf
  rw [tlen_append h3]
  have hh : (t ++ x).headD 0 = t.headD 0 := by
    cases t with
    | nil => simp at h3
    | cons => rfl
  simp only [hh]
  rw [take_drop_append (by omega), take_drop_append (by omega), take_drop_append (by omega),
    take_drop_append (by omega)]

/-- Measure for termination of repeated decoding. -/
def meas : State → Bytes → Nat
  | .header, b => 2 * b.length
  | .payload _, b => 2 * b.length + 1

theorem decodePayload_meas {h src m s' b'} (hd : decodePayload h src = .ok (.item m, s', b')) :
    meas s' b' < 2 * src.length + 1 := by
  rw [decodePayload_eq] at hd
  split at hd <;> cases hd
  simp [meas]; omega

theorem inc : codec.Incremental where
  total := by
    intro s b
    cases s with
    | header =>
      show ∃ r, decodeHeader b = .ok r
      rw [decodeHeader_eq]
      cases b with
      | nil => exact ⟨_, rfl⟩
      | cons w t =>
        simp only
        split
        · exact ⟨_, rfl⟩
        · split
          · exact ⟨_, rfl⟩
          · split
            · exact ⟨_, rfl⟩
            · rw [decodePayload_eq]; split <;> exact ⟨_, rfl⟩
    | payload h =>
      show ∃ r, decodePayload h b = .ok r
      rw [decodePayload_eq]; split <;> exact ⟨_, rfl⟩
  item_mono := by
    intro s b m s' b' x hd
    cases s with
    | payload h => exact decodePayload_item_mono x hd
    | header =>
      change decodeHeader b = _ at hd
      show decodeHeader (b ++ x) = _
      rw [decodeHeader_eq] at hd ⊢
      cases b with
      | nil => simp at hd
      | cons w t =>
        simp only [List.cons_append] at hd ⊢
        split at hd
        · simp at hd
        · rename_i hw
          rw [if_neg hw]
          split at hd
          · simp at hd
          · rename_i h3
            split at hd
            · simp at hd
            · rename_i hl
              rw [if_neg (by simp; omega), tlen_append h3, if_neg (by simp; omega),
                hdrOf_append h3 hl, List.drop_append_of_le_length (by omega)]
              exact decodePayload_item_mono x hd
  err_mono := by
    intro s b e s' b' x hd
    cases s with
    | payload h => exact absurd hd decodePayload_not_err
    | header =>
      change decodeHeader b = _ at hd
      show ∃ s'' b'', decodeHeader (b ++ x) = _
      rw [decodeHeader_eq] at hd ⊢
      cases b with
      | nil => simp at hd
      | cons w t =>
        simp only [List.cons_append] at hd ⊢
        split at hd
        · rename_i hw
          rw [if_pos hw]; cases hd; exact ⟨_, _, rfl⟩
        · split at hd
          · simp at hd
          · split at hd
            · simp at hd
            · exact absurd hd decodePayload_not_err
  more_resume := by
    intro s b s' b' x hd
    cases s with
    | payload h => obtain ⟨rfl, rfl⟩ := decodePayload_more hd; rfl
    | header =>
      change decodeHeader b = _ at hd
      show decodeHeader (b ++ x) = decode s' (b' ++ x)
      rw [decodeHeader_eq] at hd
      cases b with
      | nil => cases hd; rfl
      | cons w t =>
        simp only at hd
        split at hd
        · simp at hd
        · rename_i hw
          split at hd
          · cases hd; rfl
          · rename_i h3
            split at hd
            · cases hd; rfl
            · rename_i hl
              obtain ⟨rfl, rfl⟩ := decodePayload_more hd
              rw [decodeHeader_eq]
              simp only [List.cons_append]
              rw [if_neg hw, if_neg (by simp; omega), tlen_append h3, if_neg (by simp; omega),
                hdrOf_append h3 hl, List.drop_append_of_le_length (by omega)]
              rfl
  decr := by
    refine ⟨meas, ?_⟩
    intro s b m s' b' hd
    cases s with
    | payload h => exact decodePayload_meas hd
    | header =>
      change decodeHeader b = _ at hd
      rw [decodeHeader_eq] at hd
      cases b with
      | nil => simp at hd
      | cons w t =>
        simp only at hd
        split at hd
        · simp at hd
        · split at hd
          · simp at hd
          · split at hd
            · simp at hd
            · have := decodePayload_meas hd
              simp only [List.length_drop] at this
              show meas s' b' < 2 * (t.length + 1)
              omega

/-- Messages whose length fields are the actual lengths. -/
def Message.WF (m : Message) : Prop :=
  m.header.topicSize.toNat = m.header.topic.length ∧ m.header.size.toNat = m.payload.length

theorem decode_encode (m : Message) (x : Bytes) (h : m.WF) :
    decode .header (encode m ++ x) = .ok (.item m, .header, x) := by
  show decodeHeader _ = _
  obtain ⟨ht, hp⟩ := h
  have hu : ∀ y : UInt16, ∃ a b, putU16 y = [a, b] := by
    intro y
    exact ⟨_, _, rfl⟩
  obtain ⟨a, b, hab⟩ := hu m.header.topicSize
  have hnum : UInt16.ofNat (beNat [a, b]) = m.header.topicSize := by
    rw [← hab]; exact beNat_putU16 _
  have he : encode m ++ x = WIRE_ID :: m.header.ctype :: a :: b :: (m.header.topic ++
      putU64 m.header.timestamp ++ putU32 m.header.seq ++ putU32 m.header.size ++ m.payload ++ x) := by
    simp [encode, hab]
  rw [he]
  simp only [decodeHeader, List.isEmpty_cons,
    Bool.false_eq_true, if_false, rget_cons_zero, R.bind_ok, ne_eq, not_true_eq_false]
  rw [if_neg (by simp)]
  have e1 : ∀ t : Bytes, rget (WIRE_ID :: m.header.ctype :: t) 1 = .ok m.header.ctype := by
    intro t; simp
  rw [e1, R.bind_ok, if_neg (by simp)]
  have e2 : ∀ t : Bytes, rget (WIRE_ID :: m.header.ctype :: a :: b :: t) 2 = .ok a := by
    intro t; simp
  have e3 : ∀ t : Bytes, rget (WIRE_ID :: m.header.ctype :: a :: b :: t) 3 = .ok b := by
    intro t; simp
  rw [e2, R.bind_ok, e3, R.bind_ok, hnum, if_neg (by simp; omega), advance_ok (by simp)]
  simp only [R.bind_ok, List.drop_succ_cons, List.drop_zero, List.append_assoc]
  rw [splitTo_append' _ _ _ ht.symm]
  simp only [R.bind_ok]
  rw [getU64_put]
  simp only [R.bind_ok]
  rw [getU32_put]
  simp only [R.bind_ok]
  rw [getU32_put]
  simp only [R.bind_ok]
  rw [decodePayload_eq, if_neg (by simp; omega)]
  simp [hp]

theorem decode_nil : codec.decode codec.init [] = .ok (.more, codec.init, []) := rfl

end PubSub
end MsgRs
