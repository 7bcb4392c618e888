import Verif.Stream.Lemmas

/-!
Property theorems: little-endian scalars and records (C31), memory streams (C74).
-/

namespace Verif.Stream

open Verif

namespace Spec

/-- Byte `i` of the two's complement notation of an integer. -/
def byteOf (v : Int) (i : Nat) : Nat := ((v / (256 ^ i : Nat)) % 256).toNat

end Spec

/-! ### C31: scalars -/

theorem leEncode_getElem (n : Nat) : ∀ (v i : Nat) (h : i < (leEncode n v).length),
    ((leEncode n v)[i]).toNat = v / 256 ^ i % 256 := by
  induction n with
  | zero => intro v i h; simp [leEncode] at h
  | succ n ih =>
    intro v i h
    cases i with
    | zero => simp [leEncode]
    | succ i =>
      simp only [leEncode, List.getElem_cons_succ]
      rw [ih, Nat.div_div_eq_div_mul]
      congr 2
      ring

/-- C31: an integer of any width and signedness written to a little-endian stream takes as many bytes as its type,
byte `i` of which is digit `i` in base 256 (two's complement), whatever the byte order of the machine. -/
theorem little_endian_layout (machineLittle : Bool) (k : Scalar) (v : Int) :
    (putScalar machineLittle .little k v).length = k.bytes ∧
    ∀ i (h : i < (putScalar machineLittle .little k v).length),
      ((putScalar machineLittle .little k v)[i]).toNat = Spec.byteOf v i := by
  have e : putScalar machineLittle .little k v = k.encode v := by
    unfold putScalar needSwap memBytes
    cases machineLittle <;> simp [writeSwapped_eq]
  simp only [e, encode_length, true_and]
  intro i h
  unfold Scalar.encode
  rw [leEncode_getElem]
  have hpos : 0 < (2 ^ (8 * k.bytes) : Nat) := Nat.pow_pos (by omega)
  have b1 := Int.emod_nonneg v (show ((2 ^ (8 * k.bytes) : Nat) : Int) ≠ 0 by omega)
  unfold Spec.byteOf
  have hc : (((v % (2 ^ (8 * k.bytes) : Nat)).toNat / 256 ^ i % 256 : Nat) : Int) = (v / (256 ^ i : Nat)) % 256 := by
    rw [Int.natCast_emod, Int.natCast_ediv, Int.toNat_of_nonneg b1]
    have hn : (2 ^ (8 * k.bytes) : Nat) = 256 ^ i * (256 * 256 ^ (k.bytes - i - 1)) := by
      rw [pow_eq, ← Nat.pow_succ', ← Nat.pow_add]; congr 1; omega
    rw [hn]
    have h3 : v % ((256 ^ i * (256 * 256 ^ (k.bytes - i - 1)) : Nat) : Int) / ((256 ^ i : Nat) : Int) % 256
        = v / ((256 ^ i : Nat) : Int) % 256 := by
      generalize (256 ^ (k.bytes - i - 1) : Nat) = c
      have hp : (0 : Int) < ((256 ^ i : Nat) : Int) := by
        have : 0 < (256 ^ i : Nat) := Nat.pow_pos (by omega)
        omega
      generalize ((256 ^ i : Nat)) = a at hp ⊢
      have h4 := Int.mul_ediv_add_emod v ((a * (256 * c) : Nat) : Int)
      conv_rhs => rw [← h4]
      have : ((a * (256 * c) : Nat) : Int) * (v / ((a * (256 * c) : Nat) : Int)) + v % ((a * (256 * c) : Nat) : Int)
          = v % ((a * (256 * c) : Nat) : Int) + (a : Int) * (256 * (c * (v / ((a * (256 * c) : Nat) : Int)))) := by
        push_cast; ring
      rw [this, Int.add_mul_ediv_left _ _ (ne_of_gt hp), Int.add_mul_emod_self_left]
    exact h3
  rw [← hc, Int.toNat_natCast]

/-- C31: an integer that its type can hold, written to a little-endian stream by one machine and read from a
little-endian stream by another, is unchanged. -/
theorem little_endian_roundtrip (writerLittle readerLittle : Bool) (k : Scalar) (hk : 0 < k.bytes) (v : Int)
    (h : k.Holds v) : getScalar readerLittle .little k (putScalar writerLittle .little k v) = v := by
  unfold getScalar putScalar needSwap memBytes memValue
  cases writerLittle <;> cases readerLittle <;> simp [writeSwapped_eq, readSwapped_eq, roundtrip k hk v h]

/-- Streams of other byte orders round-trip on the same machine. -/
theorem scalar_roundtrip (machineLittle : Bool) (e : Endian) (k : Scalar) (hk : 0 < k.bytes) (v : Int)
    (h : k.Holds v) : getScalar machineLittle e k (putScalar machineLittle e k v) = v := by
  unfold getScalar putScalar needSwap memBytes memValue
  cases machineLittle <;> cases e <;> simp [writeSwapped_eq, readSwapped_eq, roundtrip k hk v h]

example : i16.Holds (-32768) ∧ putScalar true .little i16 (-2) = [0xfe, 0xff] ∧
    putScalar true .big i16 (-2) = [0xff, 0xfe] := by decide

/-- C31: a record written field by field is read back field by field, wherever it is in the memory; the reader is then
just behind it. -/
theorem record_roundtrip (pre post : List Byte) (ks : List Scalar) (hk : ∀ k ∈ ks, 0 < k.bytes) (vs : List Int)
    (h : FieldsHold ks vs) :
    IStream.fields ((IStream.open (pre ++ encodeFields ks vs ++ post)).seek pre.length) ks
      = .ok (some vs, ⟨pre ++ encodeFields ks vs ++ post, (pre.length + width ks : Nat), false⟩) := by
  have : (IStream.open (pre ++ encodeFields ks vs ++ post)).seek pre.length
      = ⟨pre ++ encodeFields ks vs ++ post, (pre.length : Nat), false⟩ := rfl
  rw [this]
  exact fields_here ks hk vs _ post pre.length h (by rw [List.append_assoc, List.drop_left])

example : FieldsHold [i32, u16, f32] [-5, 65535, 0x3f800000] := by decide

/-! ### C74: memory streams -/

/-- C74 (partial): a read on a memory stream that has not failed gives exactly the requested bytes of the memory and
moves behind them, provided they lie inside the memory; at the end of the memory it fails and touches nothing.
Missing: a read that starts inside the memory and ends behind it, see `memory_stream_overread`. -/
theorem memory_stream_read_partial (mem : List Byte) (p n : Nat) (hp : p ≤ mem.length)
    (h : p = mem.length ∨ p + n ≤ mem.length) :
    ∃ r s, IStream.read ⟨mem, p, false⟩ n = .ok (r, s) ∧ s.mem = mem ∧
      (p < mem.length → s.failed = false ∧ s.pos = p + n ∧
        ∃ bs, r = some bs ∧ bs.length = n ∧ ∀ i, i < n → bs[i]? = mem[p + i]?) ∧
      (p = mem.length → s.failed = true ∧ r = none) := by
  unfold IStream.read
  simp only [Bool.false_eq_true, if_false]
  by_cases e : p = mem.length
  · rw [if_pos (by omega)]
    exact ⟨_, _, rfl, rfl, fun hlt => by omega, fun _ => ⟨rfl, rfl⟩⟩
  · rw [if_neg (by omega), if_pos (by omega)]
    refine ⟨_, _, rfl, rfl, fun _ => ⟨rfl, rfl, _, rfl, ?_, ?_⟩, fun he => absurd he e⟩
    · simp; omega
    · intro i hi
      simp [hi]

/-- C74: the full property fails. Reading a 4-byte number when 2 bytes are left copies 4 bytes. -/
theorem memory_stream_overread : IStream.scalar ⟨[1, 2], 0, false⟩ i32 = .ub := by decide +kernel

/-- C74 (partial): a write to a memory stream that has not failed changes exactly the bytes at the put pointer,
provided they lie inside the memory; at the end it fails and touches nothing. -/
theorem memory_stream_write_partial (mem bs : List Byte) (p : Nat) (hp : p ≤ mem.length)
    (h : p = mem.length ∨ p + bs.length ≤ mem.length) :
    ∃ s, OStream.write ⟨mem, p, false⟩ bs = .ok s ∧ s.mem.length = mem.length ∧
      (p < mem.length → s.failed = false ∧ s.pos = p + bs.length ∧
        ∀ i, i < mem.length → s.mem[i]? = if p ≤ i ∧ i < p + bs.length then bs[i - p]? else mem[i]?) ∧
      (p = mem.length → s.failed = true ∧ s.mem = mem) := by
  unfold OStream.write
  simp only [Bool.false_eq_true, if_false]
  by_cases e : p = mem.length
  · rw [if_pos (by omega)]
    exact ⟨_, rfl, rfl, fun hlt => by omega, fun _ => ⟨rfl, rfl⟩⟩
  · rw [if_neg (by omega), if_pos (by omega)]
    refine ⟨_, rfl, ?_, fun _ => ⟨rfl, rfl, ?_⟩, fun he => absurd he e⟩
    · simp; omega
    · intro i hi
      simp only [Int.toNat_natCast, List.append_assoc]
      rw [List.getElem?_append, List.length_take, Nat.min_eq_left hp]
      by_cases h1 : i < p
      · rw [if_pos h1, if_neg (by omega), List.getElem?_take, if_pos h1]
      · rw [if_neg h1, List.getElem?_append]
        by_cases h2 : i - p < bs.length
        · rw [if_pos h2, if_pos (by omega)]
        · rw [if_neg h2, if_neg (by omega), List.getElem?_drop]
          congr 1; omega

/-- C74: writing 2 bytes where 1 is left copies both. -/
theorem memory_stream_overwrite : OStream.write ⟨[1, 2], 1, false⟩ [7, 8] = .ub := by decide +kernel

/-- A failed stream stays failed and reads nothing, also after seeking. -/
theorem memory_stream_failed (mem : List Byte) (p q : Int) (n : Nat) :
    ((⟨mem, p, true⟩ : IStream).seek q).read n = .ok (none, ⟨mem, p, true⟩) := rfl

/-- C74: the counting stream counts: after any sequence of block writes its position is the number of bytes written. -/
theorem size_stream_counts (ns : List Nat) :
    (ns.foldl SizeStream.write ⟨0, 0⟩).pos = (ns.sum : Nat) := by
  have : ∀ (a : Nat), (ns.foldl SizeStream.write ⟨a, a⟩).pos = (a + ns.sum : Nat) := by
    induction ns with
    | nil => intro a; simp
    | cons n ns ih =>
      intro a
      have e : SizeStream.write ⟨a, a⟩ n = ⟨(a + n : Nat), (a + n : Nat)⟩ := by
        unfold SizeStream.write
        simp
      rw [List.foldl_cons, e, ih]
      simp [Nat.add_assoc]
  have h := this 0
  simpa using h

end Verif.Stream
