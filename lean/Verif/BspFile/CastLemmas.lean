import Verif.BspFile.Cast
import Verif.Stream.Lemmas
import Mathlib.Tactic.FieldSimp
import Mathlib.Tactic.Linarith
import Mathlib.Tactic.NormNum

namespace Verif.BspFile

open Verif Verif.Stream

/-- The standard integer types. -/
def stdTypes : List Scalar := [i8, u8, i16, u16, i32, u32, i64, u64]

/-- A standard integer type. -/
def Std (k : Scalar) : Prop := k ∈ stdTypes

instance (k : Scalar) : Decidable (Std k) := by unfold Std; infer_instance

theorem common_facts : ∀ a ∈ stdTypes, ∀ b ∈ stdTypes,
    a.hi ≤ (common a b).hi ∧ b.hi ≤ (common a b).hi ∧ (common a b).lo ≤ 0 ∧ 0 < (common a b).bytes ∧
    (a.signed = true → b.signed = true → (common a b).lo ≤ a.lo ∧ (common a b).lo ≤ b.lo) := by decide +kernel

theorem std_facts : ∀ a ∈ stdTypes, 0 ≤ a.hi ∧ a.lo ≤ 0 ∧ (a.signed = false → a.lo = 0) ∧ 0 < a.bytes := by
  decide +kernel

theorem ltC_eq {a b : Scalar} {x y : Int} (hb : 0 < (common a b).bytes) (hx : (common a b).Holds x)
    (hy : (common a b).Holds y) : ltC a x b y = decide (x < y) := by
  unfold ltC
  rw [wrap_of_holds _ hb x hx, wrap_of_holds _ hb y hy]

theorem ltC_nonneg {a b : Scalar} (ha : Std a) (hb : Std b) {x y : Int} (hx : 0 ≤ x ∧ x ≤ a.hi)
    (hy : 0 ≤ y ∧ y ≤ b.hi) : ltC a x b y = decide (x < y) := by
  obtain ⟨f1, f2, f3, f4, -⟩ := common_facts a ha b hb
  exact ltC_eq f4 ⟨by omega, by omega⟩ ⟨by omega, by omega⟩

theorem ltC_signed {a b : Scalar} (ha : Std a) (hb : Std b) (sa : a.signed = true) (sb : b.signed = true) {x y : Int}
    (hx : a.Holds x) (hy : b.Holds y) : ltC a x b y = decide (x < y) := by
  obtain ⟨f1, f2, f3, f4, f5⟩ := common_facts a ha b hb
  obtain ⟨g1, g2⟩ := f5 sa sb
  obtain ⟨h1, h2⟩ := hx
  obtain ⟨h3, h4⟩ := hy
  exact ltC_eq f4 ⟨by omega, by omega⟩ ⟨by omega, by omega⟩

theorem positive_check {dst src : Scalar} (hd : Std dst) (hs : Std src) {v : Int} (h : src.Holds v) :
    (ltC dst dst.hi src src.hi && ltC dst dst.hi src v) = true → dst.hi < v ∨ v < 0 := by
  obtain ⟨d1, d2, -, -⟩ := std_facts dst hd
  obtain ⟨s1, s2, -, -⟩ := std_facts src hs
  obtain ⟨h1, h2⟩ := h
  intro hc
  by_cases hv : 0 ≤ v
  · rw [ltC_nonneg hd hs ⟨d1, le_refl _⟩ ⟨hv, h2⟩] at hc
    simp at hc
    omega
  · omega

theorem positive_check_conv {dst src : Scalar} (hd : Std dst) (hs : Std src) {v : Int} (h : src.Holds v)
    (hv : dst.hi < v) : (ltC dst dst.hi src src.hi && ltC dst dst.hi src v) = true := by
  obtain ⟨d1, d2, -, -⟩ := std_facts dst hd
  obtain ⟨s1, s2, -, -⟩ := std_facts src hs
  obtain ⟨h1, h2⟩ := h
  rw [ltC_nonneg hd hs ⟨d1, le_refl _⟩ ⟨s1, le_refl _⟩, ltC_nonneg hd hs ⟨d1, le_refl _⟩ ⟨by omega, h2⟩]
  simp
  omega

theorem willOverflow_iff (dst src : Scalar) (hd : Std dst) (hs : Std src) (v : Int) (h : src.Holds v) :
    willOverflow dst src v = true ↔ ¬ dst.Holds v := by
  obtain ⟨d1, d2, d3, -⟩ := std_facts dst hd
  obtain ⟨s1, s2, s3, -⟩ := std_facts src hs
  have hi0 : Std i32 := by decide
  have i0 : i32.Holds 0 := by decide
  have hh := h
  obtain ⟨h1, h2⟩ := hh
  have pc := positive_check_conv hd hs h
  unfold Scalar.Holds
  unfold willOverflow
  cases hds : dst.signed <;> cases hss : src.signed <;>
    simp only [Bool.not_false, Bool.not_true, Bool.and_self, Bool.and_false, Bool.and_true,
      Bool.true_and, if_true, if_false, Bool.false_eq_true, Bool.or_eq_true, Bool.true_or]
  · have := d3 hds
    have := s3 hss
    have p := positive_check hd hs h
    constructor
    · intro hc; have := p hc; omega
    · intro hc; exact pc (by omega)
  · have := d3 hds
    have p := positive_check hd hs h
    rw [ltC_signed hs hi0 hss rfl h i0]
    simp only [decide_eq_true_eq]
    constructor
    · rintro (hc | hc)
      · have := p hc; omega
      · omega
    · intro hc
      by_cases hv : v < 0
      · exact .inr hv
      · exact .inl (pc (by omega))
  · have := s3 hss
    have p := positive_check hd hs h
    constructor
    · intro hc; have := p hc; omega
    · intro hc; exact pc (by omega)
  · have hdl : dst.Holds dst.lo := ⟨le_refl _, by omega⟩
    have hdh : dst.Holds dst.hi := ⟨by omega, le_refl _⟩
    rw [ltC_signed hs hd hss hds h hdl]
    rw [ltC_signed hd hs hds hss hdh h]
    rw [ltC_signed hd hs hds hss hdh ⟨by omega, le_refl _⟩]
    simp only [decide_eq_true_eq, Bool.and_eq_true]
    omega

theorem numericCast_spec (dst src : Scalar) (hd : Std dst) (hs : Std src) (v : Int) (h : src.Holds v) :
    (dst.Holds v → numericCast dst src v = .ok v) ∧ (¬ dst.Holds v → numericCast dst src v = .error) := by
  have hw := willOverflow_iff dst src hd hs v h
  have hb : 0 < dst.bytes := (std_facts dst hd).2.2.2
  constructor
  · intro hv
    unfold numericCast
    rw [if_neg (fun hc => hw.mp hc hv), wrap_of_holds dst hb v hv]
  · intro hv
    unfold numericCast
    rw [if_pos (hw.mpr hv)]

theorem castI16_int (n : Int) : (i16.Holds n → castI16 (.fin n) = .ok n) ∧
    (¬ i16.Holds n → castI16 (.fin n) = .error) := by
  unfold castI16 Flt.lt Scalar.Holds
  simp only [Scalar.lo, Scalar.hi, if_true]
  constructor
  · rintro ⟨h1, h2⟩
    norm_num at h1 h2
    have e1 : ¬ ((32767 : Rat) < (n : Rat)) := by
      have : (n : Rat) ≤ (32767 : Int) := by exact_mod_cast h2
      push_cast at this; linarith
    have e2 : ¬ ((n : Rat) < (-32768 : Rat)) := by
      have : ((-32768 : Int) : Rat) ≤ n := by exact_mod_cast h1
      push_cast at this; linarith
    simp [e1, e2]
    omega
  · intro h
    norm_num at h
    have : (32767 : Rat) < (n : Rat) ∨ (n : Rat) < (-32768 : Rat) := by
      by_cases hn : -32768 ≤ n
      · left
        have := h hn
        have : ((32767 : Int) : Rat) < n := by exact_mod_cast this
        push_cast at this; linarith
      · right
        have : (n : Rat) < ((-32768 : Int) : Rat) := by exact_mod_cast (by omega : n < -32768)
        push_cast at this; linarith
    simp only [Bool.or_eq_true, decide_eq_true_eq, this, if_true]

theorem castI16_nonfin : castI16 .nan = .ub ∧ castI16 .inf = .error ∧ castI16 .ninf = .error := by
  refine ⟨?_, ?_, ?_⟩ <;> simp [castI16, Flt.lt]

theorem f32val_normal (neg : Bool) (e m : Nat) (h1 : 0 < e) (h2 : e < 255) (h3 : m < 8388608) :
    f32val ((if neg then 2 ^ 31 else 0) + (e : Int) * 2 ^ 23 + m)
      = .fin ((if neg then -1 else 1) * (((2 ^ 23 + m : Nat) : Rat) * (2 ^ e / 2 ^ 150))) := by
  have p31 : (2 : Int) ^ 31 = 2147483648 := by norm_num
  have p23 : (2 : Int) ^ 23 = 8388608 := by norm_num
  generalize hb : ((if neg then (2 : Int) ^ 31 else 0) + (e : Int) * 2 ^ 23 + m) = b
  rw [p31, p23] at hb
  have e1 : b / 2147483648 % 2 = if neg then 1 else 0 := by cases neg <;> simp at hb ⊢ <;> omega
  have e2 : (b / 8388608 % 256).toNat = e := by cases neg <;> simp at hb <;> omega
  have e3 : b % 8388608 = (m : Int) := by cases neg <;> simp at hb <;> omega
  unfold f32val
  simp only [p31, p23, e1, e2, e3]
  rw [if_neg (by omega), if_neg (by omega)]
  refine congrArg Flt.fin ?_
  push_cast
  cases neg <;> simp <;> norm_num

theorem f32val_f32ofInt (n : Int) (h : n.natAbs < 2 ^ 24) : f32val (f32ofInt n) = .fin n := by
  unfold f32ofInt
  by_cases hz : n = 0
  · subst hz; simp [f32val]
  · rw [if_neg hz]
    dsimp only
    have ha : n.natAbs ≠ 0 := by omega
    have l1 := Nat.log2_self_le ha
    have l2 : n.natAbs < 2 ^ (n.natAbs.log2 + 1) := Nat.lt_log2_self
    have l3 : n.natAbs.log2 < 24 := (Nat.log2_lt ha).mpr h
    generalize hE : n.natAbs.log2 = e at *
    have p1 : 2 ^ e * 2 ^ (23 - e) = (2 ^ 23 : Nat) := by rw [← Nat.pow_add]; congr 1; omega
    have p2 : 2 ^ (e + 1) * 2 ^ (23 - e) = (2 ^ 24 : Nat) := by rw [← Nat.pow_add]; congr 1; omega
    have m1 : 2 ^ 23 ≤ n.natAbs * 2 ^ (23 - e) := by rw [← p1]; exact Nat.mul_le_mul_right _ l1
    have m2 : n.natAbs * 2 ^ (23 - e) < 2 ^ 24 := by
      rw [← p2]; exact Nat.mul_lt_mul_of_pos_right l2 (Nat.pow_pos (by omega))
    have hval : (((n.natAbs * 2 ^ (23 - e) : Nat)) : Rat) * (2 ^ (e + 127) / 2 ^ 150) = (n.natAbs : Rat) := by
      have : (2 : Rat) ^ (23 - e) * 2 ^ (e + 127) = 2 ^ 150 := by rw [← pow_add]; congr 1; omega
      push_cast
      rw [mul_assoc, ← mul_div_assoc, this, div_self (pow_ne_zero _ (by norm_num)), mul_one]
    generalize hM : n.natAbs * 2 ^ (23 - e) = M at *
    have n23 : (2 : Nat) ^ 23 = 8388608 := by norm_num
    have n24 : (2 : Nat) ^ 24 = 16777216 := by norm_num
    have key := f32val_normal (decide (n < 0)) (e + 127) (M - 2 ^ 23) (by omega) (by omega) (by omega)
    simp only [decide_eq_true_eq] at key
    rw [key, show 2 ^ 23 + (M - 2 ^ 23) = M by omega, hval]
    refine congrArg Flt.fin ?_
    by_cases hn : n < 0
    · rw [if_pos hn]
      have : n = -(n.natAbs : Int) := by omega
      have hq : (n : Rat) = -((n.natAbs : Nat) : Rat) := by
        generalize n.natAbs = a at this
        rw [this]; push_cast; rfl
      rw [hq]; ring
    · rw [if_neg hn]
      have : n = (n.natAbs : Int) := by omega
      have hq : (n : Rat) = ((n.natAbs : Nat) : Rat) := by
        generalize n.natAbs = a at this
        rw [this]; push_cast; rfl
      rw [hq]; ring

theorem minsCast_ofInt (n : Int) (h : i16.Holds n) : minsCast (f32ofInt n) = .ok n := by
  have hn : n.natAbs < 2 ^ 24 := by
    obtain ⟨h1, h2⟩ := h
    simp only [Scalar.lo, Scalar.hi, if_true] at h1 h2
    norm_num at h1 h2; omega
  unfold minsCast
  rw [f32val_f32ofInt n hn]
  simp only [Flt.floor, Int.floor_intCast]
  exact (castI16_int n).1 h

theorem maxsCast_ofInt (n : Int) (h : i16.Holds n) : maxsCast (f32ofInt n) = .ok n := by
  have hn : n.natAbs < 2 ^ 24 := by
    obtain ⟨h1, h2⟩ := h
    simp only [Scalar.lo, Scalar.hi, if_true] at h1 h2
    norm_num at h1 h2; omega
  unfold maxsCast
  rw [f32val_f32ofInt n hn]
  simp only [Flt.ceil, Int.ceil_intCast]
  exact (castI16_int n).1 h

theorem castI16_ok_floor (q : Rat) (n : Int) (h : castI16 (Flt.fin ⌊q⌋) = .ok n) : n = ⌊q⌋ ∧ i16.Holds n := by
  by_cases hh : i16.Holds ⌊q⌋
  · rw [(castI16_int _).1 hh] at h
    cases h; exact ⟨rfl, hh⟩
  · rw [(castI16_int _).2 hh] at h; cases h

theorem castI16_ok_int (m n : Int) (h : castI16 (Flt.fin m) = .ok n) : n = m ∧ i16.Holds n := by
  by_cases hh : i16.Holds m
  · rw [(castI16_int _).1 hh] at h
    cases h; exact ⟨rfl, hh⟩
  · rw [(castI16_int _).2 hh] at h; cases h

theorem minsCast_ok (b n : Int) (h : minsCast b = .ok n) : ∃ q, f32val b = .fin q ∧ n = ⌊q⌋ ∧ i16.Holds n := by
  unfold minsCast at h
  cases e : f32val b with
  | fin q =>
    rw [e] at h
    exact ⟨q, rfl, castI16_ok_int _ _ h⟩
  | nan => rw [e] at h; simp [Flt.floor, castI16_nonfin] at h
  | inf => rw [e] at h; simp [Flt.floor, castI16_nonfin] at h
  | ninf => rw [e] at h; simp [Flt.floor, castI16_nonfin] at h

theorem maxsCast_ok (b n : Int) (h : maxsCast b = .ok n) : ∃ q, f32val b = .fin q ∧ n = ⌈q⌉ ∧ i16.Holds n := by
  unfold maxsCast at h
  cases e : f32val b with
  | fin q =>
    rw [e] at h
    exact ⟨q, rfl, castI16_ok_int _ _ h⟩
  | nan => rw [e] at h; simp [Flt.ceil, castI16_nonfin] at h
  | inf => rw [e] at h; simp [Flt.ceil, castI16_nonfin] at h
  | ninf => rw [e] at h; simp [Flt.ceil, castI16_nonfin] at h

theorem clip_spec (v : Int) : (-15 ≤ v ∧ v ≤ 0xFFF0 → ∃ w, clipDowncast v = .ok w ∧ i16.Holds w ∧ clipUpcast w = v) ∧
    (¬ (-15 ≤ v ∧ v ≤ 0xFFF0) → clipDowncast v = .error) := by
  constructor
  · rintro ⟨h1, h2⟩
    unfold clipDowncast
    rw [if_neg (by omega)]
    refine ⟨_, rfl, wrap_holds i16 (by decide) _, ?_⟩
    unfold clipUpcast
    simp only [Scalar.wrap]
    norm_num
    split <;> split <;> split <;> omega
  · intro h
    unfold clipDowncast
    rw [if_pos (by omega)]

theorem clip_up_down (w : Int) (h : i16.Holds w) : clipDowncast (clipUpcast w) = .ok w ∧ i32.Holds (clipUpcast w) := by
  obtain ⟨h1, h2⟩ := h
  simp only [Scalar.lo, Scalar.hi, if_true] at h1 h2
  norm_num at h1 h2
  unfold clipDowncast clipUpcast Scalar.Holds
  simp only [Scalar.wrap, Scalar.lo, Scalar.hi, if_true]
  norm_num
  constructor
  · split
    · rw [if_neg (by omega)]
      congr 1
      split <;> split <;> omega
    · rw [if_neg (by omega)]
      congr 1
      split <;> split <;> omega
  · split <;> constructor <;> omega

end Verif.BspFile
