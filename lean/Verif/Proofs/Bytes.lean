import Verif.Model.Bytes
namespace MsgRs

theorem beNat_append (a b : Bytes) : beNat (a ++ b) = beNat a * 256 ^ b.length + beNat b := by
  unfold beNat
  rw [List.foldl_append]
  suffices h : ∀ (b : Bytes) (x : Nat),
      b.foldl (fun acc b => acc * 256 + b.toNat) x
        = x * 256 ^ b.length + b.foldl (fun acc b => acc * 256 + b.toNat) 0 from h b _
  intro b
  induction b with
  | nil => intro x; simp
  | cons y b ih =>
    intro x
    rw [List.foldl_cons, ih, List.foldl_cons, ih (0 * 256 + y.toNat), List.length_cons, Nat.pow_succ]
    grind

@[simp] theorem beBytes_length (k n : Nat) : (beBytes k n).length = k := by
  induction k generalizing n with
  | zero => rfl
  | succ k ih => simp [beBytes, ih]

theorem beNat_beBytes (k n : Nat) : beNat (beBytes k n) = n % 256 ^ k := by
  induction k generalizing n with
  | zero => simp [beBytes, beNat, Nat.mod_one]
  | succ k ih =>
    rw [beBytes, beNat_append, ih]
    have h1 : beNat [UInt8.ofNat n] = n % 256 := by simp [beNat]
    rw [h1, Nat.pow_succ, Nat.mul_comm (256 ^ k) 256, Nat.mod_mul]
    simp; omega

@[simp] theorem putU16_length (x : UInt16) : (putU16 x).length = 2 := by simp [putU16]
@[simp] theorem putU32_length (x : UInt32) : (putU32 x).length = 4 := by simp [putU32]
@[simp] theorem putU64_length (x : UInt64) : (putU64 x).length = 8 := by simp [putU64]

theorem beNat_putU16 (x : UInt16) : UInt16.ofNat (beNat (putU16 x)) = x := by
  unfold putU16; rw [beNat_beBytes]; apply UInt16.toNat_inj.mp; simp
theorem beNat_putU32 (x : UInt32) : UInt32.ofNat (beNat (putU32 x)) = x := by
  unfold putU32; rw [beNat_beBytes]; apply UInt32.toNat_inj.mp; simp
theorem beNat_putU64 (x : UInt64) : UInt64.ofNat (beNat (putU64 x)) = x := by
  unfold putU64; rw [beNat_beBytes]; apply UInt64.toNat_inj.mp; simp

theorem splitTo_ok {src : Bytes} {n : Nat} (h : n ≤ src.length) :
    splitTo src n = .ok (src.take n, src.drop n) := by simp [splitTo, h]

theorem splitTo_append (a b : Bytes) : splitTo (a ++ b) a.length = .ok (a, b) := by
  simp [splitTo]

theorem splitTo_append' (a b : Bytes) (n : Nat) (h : a.length = n) :
    splitTo (a ++ b) n = .ok (a, b) := by subst h; exact splitTo_append a b

theorem splitTo_mono {src : Bytes} {n : Nat} (h : n ≤ src.length) (x : Bytes) :
    splitTo (src ++ x) n = .ok (src.take n, src.drop n ++ x) := by
  rw [splitTo_ok (by simp; omega), List.take_append_of_le_length h, List.drop_append_of_le_length h]

theorem advance_ok {src : Bytes} {n : Nat} (h : n ≤ src.length) :
    advance src n = .ok (src.drop n) := by simp [advance, h]

theorem getU8_ok {src : Bytes} (h : 1 ≤ src.length) :
    getU8 src = .ok (UInt8.ofNat (beNat (src.take 1)), src.drop 1) := by
  simp [getU8, splitTo_ok h]
theorem getU32_ok {src : Bytes} (h : 4 ≤ src.length) :
    getU32 src = .ok (UInt32.ofNat (beNat (src.take 4)), src.drop 4) := by
  simp [getU32, splitTo_ok h]
theorem getU64_ok {src : Bytes} (h : 8 ≤ src.length) :
    getU64 src = .ok (UInt64.ofNat (beNat (src.take 8)), src.drop 8) := by
  simp [getU64, splitTo_ok h]

theorem getU32_put (x : UInt32) (b : Bytes) : getU32 (putU32 x ++ b) = .ok (x, b) := by
  simp [getU32, splitTo_append' _ _ 4, beNat_putU32]
theorem getU64_put (x : UInt64) (b : Bytes) : getU64 (putU64 x ++ b) = .ok (x, b) := by
  simp [getU64, splitTo_append' _ _ 8, beNat_putU64]

theorem rget_ok {src : Bytes} {i : Nat} (h : i < src.length) : rget src i = .ok src[i] := by
  simp [rget, h]

@[simp] theorem rget_cons_zero (a : UInt8) (s : Bytes) : rget (a :: s) 0 = .ok a := rfl
@[simp] theorem rget_cons_succ (a : UInt8) (s : Bytes) (i : Nat) :
    rget (a :: s) (i + 1) = rget s i := by simp [rget]

end MsgRs
