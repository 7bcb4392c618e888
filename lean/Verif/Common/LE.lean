/-!
Little-endian byte encodings, shared by all file format models.
-/

namespace Verif

abbrev Byte := BitVec 8

/-- The `n` bytes of `v`, least significant first. -/
def leEncode : Nat → Nat → List Byte
  | 0, _ => []
  | n + 1, v => BitVec.ofNat 8 v :: leEncode n (v / 256)

/-- The number whose little-endian bytes are given. -/
def leDecode : List Byte → Nat
  | [] => 0
  | b :: bs => b.toNat + 256 * leDecode bs

@[simp] theorem leEncode_length (n v : Nat) : (leEncode n v).length = n := by
  induction n generalizing v with
  | zero => rfl
  | succ n ih => simp [leEncode, ih]

theorem leDecode_leEncode (n v : Nat) : leDecode (leEncode n v) = v % 256 ^ n := by
  induction n generalizing v with
  | zero => simp [leEncode, leDecode, Nat.mod_one]
  | succ n ih =>
    simp only [leEncode, leDecode, ih, BitVec.toNat_ofNat]
    rw [show 256 ^ (n + 1) = 256 * 256 ^ n by rw [Nat.pow_succ, Nat.mul_comm], Nat.mod_mul]

theorem leDecode_lt (bs : List Byte) : leDecode bs < 256 ^ bs.length := by
  induction bs with
  | nil => simp [leDecode]
  | cons b bs ih =>
    simp only [leDecode, List.length_cons, Nat.pow_succ]
    have := b.isLt
    omega

theorem leEncode_leDecode (bs : List Byte) : leEncode bs.length (leDecode bs) = bs := by
  induction bs with
  | nil => rfl
  | cons b bs ih =>
    have hb := b.isLt
    simp only [List.length_cons, leEncode, leDecode]
    have h1 : (b.toNat + 256 * leDecode bs) / 256 = leDecode bs := by omega
    have h2 : BitVec.ofNat 8 (b.toNat + 256 * leDecode bs) = b := by
      apply BitVec.eq_of_toNat_eq
      simp only [BitVec.toNat_ofNat]; omega
    rw [h1, h2, ih]

theorem leDecode_leEncode_of_lt {n v : Nat} (h : v < 256 ^ n) :
    leDecode (leEncode n v) = v := by
  rw [leDecode_leEncode, Nat.mod_eq_of_lt h]

end Verif
