import Verif.Stream.Model
import Mathlib.Tactic.Ring

namespace Verif.Stream

open Verif

/-- The value can be held by the type. -/
def Scalar.Holds (k : Scalar) (v : Int) : Prop := k.lo ≤ v ∧ v ≤ k.hi

instance (k : Scalar) (v : Int) : Decidable (k.Holds v) := by unfold Scalar.Holds; infer_instance

theorem wrap_of_holds (k : Scalar) (hk : 0 < k.bytes) (v : Int) (h : k.Holds v) : k.wrap v = v := by
  obtain ⟨h1, h2⟩ := h
  unfold Scalar.lo at h1
  unfold Scalar.hi at h2
  unfold Scalar.wrap
  have e : (2 ^ (8 * k.bytes) : Nat) = 2 * 2 ^ (8 * k.bytes - 1) := by
    rw [← Nat.pow_succ']; congr 1; omega
  generalize hM : (2 ^ (8 * k.bytes - 1) : Nat) = M at *
  have hM0 : 0 < M := by rw [← hM]; exact Nat.pow_pos (by omega)
  rw [e]
  cases hs : k.signed with
  | true =>
    simp only [hs, if_true] at h1 h2
    simp only [Bool.true_and, decide_eq_true_eq]
    by_cases hv : 0 ≤ v
    · have : v % ((2 * M : Nat) : Int) = v := Int.emod_eq_of_lt hv (by push_cast; omega)
      rw [this, if_neg (by omega)]
    · have : v % ((2 * M : Nat) : Int) = v + 2 * M := by
        rw [← Int.add_emod_right, Int.emod_eq_of_lt] <;> push_cast <;> omega
      rw [this, if_pos (by omega)]
      push_cast; omega
  | false =>
    simp only [hs, Bool.false_eq_true, if_false] at h1 h2
    simp only [Bool.false_and, Bool.false_eq_true, if_false]
    exact Int.emod_eq_of_lt h1 (by rw [e] at h2; omega)

theorem wrap_holds (k : Scalar) (hk : 0 < k.bytes) (v : Int) : k.Holds (k.wrap v) := by
  unfold Scalar.Holds Scalar.lo Scalar.hi Scalar.wrap
  have e : (2 ^ (8 * k.bytes) : Nat) = 2 * 2 ^ (8 * k.bytes - 1) := by
    rw [← Nat.pow_succ']; congr 1; omega
  generalize hM : (2 ^ (8 * k.bytes - 1) : Nat) = M at *
  have hM0 : 0 < M := by rw [← hM]; exact Nat.pow_pos (by omega)
  rw [e]
  have b1 := Int.emod_nonneg v (show ((2 * M : Nat) : Int) ≠ 0 by omega)
  have b2 := Int.emod_lt_of_pos v (show (0 : Int) < ((2 * M : Nat) : Int) by omega)
  push_cast at b1 b2 ⊢
  cases hs : k.signed with
  | true =>
    simp only [if_true, Bool.true_and, decide_eq_true_eq]
    split <;> constructor <;> omega
  | false =>
    simp only [Bool.false_and, Bool.false_eq_true, if_false]
    constructor <;> omega

theorem wrap_emod (k : Scalar) (v : Int) : k.wrap (v % (2 ^ (8 * k.bytes) : Nat)) = k.wrap v := by
  unfold Scalar.wrap
  rw [Int.emod_emod_of_dvd _ (dvd_refl _)]

theorem pow_eq (n : Nat) : (2 ^ (8 * n) : Nat) = 256 ^ n := by rw [Nat.pow_mul]

theorem decode_encode (k : Scalar) (v : Int) : k.decode (k.encode v) = k.wrap v := by
  unfold Scalar.decode Scalar.encode
  have hpos : (0 : Int) < ((2 ^ (8 * k.bytes) : Nat) : Int) := by
    have : 0 < (2 ^ (8 * k.bytes) : Nat) := Nat.pow_pos (by omega)
    omega
  have b1 := Int.emod_nonneg v (ne_of_gt hpos)
  have b2 := Int.emod_lt_of_pos v hpos
  rw [leDecode_leEncode_of_lt (by rw [← pow_eq]; omega), Int.toNat_of_nonneg b1, wrap_emod]

@[simp] theorem encode_length (k : Scalar) (v : Int) : (k.encode v).length = k.bytes := by
  simp [Scalar.encode]

theorem roundtrip (k : Scalar) (hk : 0 < k.bytes) (v : Int) (h : k.Holds v) : k.decode (k.encode v) = v := by
  rw [decode_encode, wrap_of_holds k hk v h]

theorem writeSwapped_eq (bs : List Byte) : writeSwapped bs = bs.reverse := by
  unfold writeSwapped
  apply List.ext_getElem
  · simp
  · intro i h1 h2
    simp only [List.length_map, List.length_range, List.length_reverse] at h1 h2
    simp only [List.getElem_map, List.getElem_range, List.getElem_reverse]
    rw [List.getD_eq_getElem?_getD, List.getElem?_eq_getElem (by omega)]
    rfl

theorem readSwapped_eq (bs : List Byte) : readSwapped bs = bs.reverse := by
  unfold readSwapped
  rw [List.foldl_flip_cons_eq_append']
  simp

/-! ### Reading what is there -/

theorem read_here (mem bs rest : List Byte) (p : Nat) (h : mem.drop p = bs ++ rest) (hb : bs ≠ []) :
    IStream.read ⟨mem, p, false⟩ bs.length = .ok (some bs, ⟨mem, (p + bs.length : Nat), false⟩) := by
  have hl := congrArg List.length h
  simp only [List.length_drop, List.length_append] at hl
  have hpos : 0 < bs.length := List.length_pos_iff.mpr hb
  unfold IStream.read
  simp only [Bool.false_eq_true, if_false]
  rw [if_neg (by omega), if_pos (by omega)]
  simp only [Int.toNat_natCast, h, List.take_left]
  push_cast
  rfl

theorem drop_next {mem bs rest : List Byte} {p : Nat} (h : mem.drop p = bs ++ rest) :
    mem.drop (p + bs.length) = rest := by
  rw [← List.drop_drop, h, List.drop_left]

theorem scalar_here (mem rest : List Byte) (p : Nat) (k : Scalar) (hk : 0 < k.bytes) (v : Int) (hv : k.Holds v)
    (h : mem.drop p = k.encode v ++ rest) :
    IStream.scalar ⟨mem, p, false⟩ k = .ok (some v, ⟨mem, (p + k.bytes : Nat), false⟩) := by
  have := read_here mem (k.encode v) rest p h (by intro e; have := congrArg List.length e; simp at this; omega)
  rw [encode_length] at this
  unfold IStream.scalar
  rw [this]
  simp only [Outcome.ok_bind, Option.map_some, Outcome.pure_eq, roundtrip k hk v hv]

/-- Values that fit their fields. -/
def FieldsHold : List Scalar → List Int → Prop
  | [], [] => True
  | k :: ks, v :: vs => k.Holds v ∧ FieldsHold ks vs
  | _, _ => False

instance decFieldsHold : (ks : List Scalar) → (vs : List Int) → Decidable (FieldsHold ks vs)
  | [], [] => .isTrue trivial
  | _ :: _, [] => .isFalse id
  | [], _ :: _ => .isFalse id
  | k :: ks, v :: vs =>
    have := decFieldsHold ks vs
    inferInstanceAs (Decidable (k.Holds v ∧ FieldsHold ks vs))

/-- The size of a record. -/
def width (ks : List Scalar) : Nat := (ks.map Scalar.bytes).sum

theorem encodeFields_length (ks : List Scalar) : ∀ vs, FieldsHold ks vs → (encodeFields ks vs).length = width ks := by
  induction ks with
  | nil => intro vs _; cases vs <;> simp [encodeFields, width]
  | cons k ks ih =>
    intro vs h
    cases vs with
    | nil => exact absurd h (by simp [FieldsHold])
    | cons v vs =>
      have := ih vs h.2
      simp only [encodeFields, List.length_append, encode_length, this, width, List.map_cons, List.sum_cons]

theorem fields_here (ks : List Scalar) (hk : ∀ k ∈ ks, 0 < k.bytes) : ∀ (vs : List Int) (mem rest : List Byte) (p : Nat),
    FieldsHold ks vs → mem.drop p = encodeFields ks vs ++ rest →
    IStream.fields ⟨mem, p, false⟩ ks = .ok (some vs, ⟨mem, (p + width ks : Nat), false⟩) := by
  induction ks with
  | nil =>
    intro vs mem rest p h _
    cases vs with
    | nil => simp [IStream.fields, width]
    | cons v vs => exact absurd h (by simp [FieldsHold])
  | cons k ks ih =>
    intro vs mem rest p h hd
    cases vs with
    | nil => exact absurd h (by simp [FieldsHold])
    | cons v vs =>
      simp only [encodeFields, List.append_assoc] at hd
      have h1 := scalar_here mem _ p k (hk k (by simp)) v h.1 hd
      have h2 := drop_next hd
      rw [encode_length] at h2
      have h3 := ih (fun k hk' => hk k (by simp [hk'])) vs mem rest (p + k.bytes) h.2 h2
      simp only [IStream.fields, h1, Outcome.ok_bind, h3, Outcome.pure_eq]
      simp [width, Nat.add_assoc]

theorem records_here (ks : List Scalar) (hk : ∀ k ∈ ks, 0 < k.bytes) : ∀ (rs : List (List Int)) (mem rest : List Byte)
    (p : Nat), (∀ r ∈ rs, FieldsHold ks r) → mem.drop p = rs.flatMap (encodeFields ks) ++ rest →
    IStream.records ⟨mem, p, false⟩ ks rs.length = .ok (some rs, ⟨mem, (p + rs.length * width ks : Nat), false⟩) := by
  intro rs
  induction rs with
  | nil => intro mem rest p _ _; simp [IStream.records]
  | cons r rs ih =>
    intro mem rest p h hd
    simp only [List.flatMap_cons, List.append_assoc] at hd
    have h1 := fields_here ks hk r mem _ p (h r (by simp)) hd
    have h2 := drop_next hd
    rw [encodeFields_length ks r (h r (by simp))] at h2
    have h3 := ih mem rest (p + width ks) (fun r hr => h r (by simp [hr])) h2
    simp only [List.length_cons, IStream.records, h1, Outcome.ok_bind, h3, Outcome.pure_eq]
    simp [Nat.add_mul, Nat.add_assoc, Nat.add_comm]

theorem flatMap_length (ks : List Scalar) : ∀ rs : List (List Int), (∀ r ∈ rs, FieldsHold ks r) →
    (rs.flatMap (encodeFields ks)).length = rs.length * width ks := by
  intro rs
  induction rs with
  | nil => simp
  | cons r rs ih =>
    intro h
    simp only [List.flatMap_cons, List.length_append, List.length_cons]
    rw [encodeFields_length ks r (h r (by simp)), ih (fun r hr => h r (by simp [hr]))]
    simp [Nat.add_mul, Nat.add_comm]

end Verif.Stream
