import Verif.TexDef.Spec
import Mathlib.Analysis.SpecialFunctions.Complex.Arg

/-!
The functions of mathematics, as real numbers, and a rounding: they are as the theorems suppose.
-/

namespace Verif.TexDef

open Geom TexDef.Spec

/-- Sines, cosines, angles in degrees, and square roots; numbers from 2^31 are rounded down to multiples of 128. -/
noncomputable def realEnv (old : Bool) : Env ℝ where
  old := old
  cosd a := Real.cos (a * (Real.pi / 180))
  sind a := Real.sin (a * (Real.pi / 180))
  angd y x := Complex.arg ⟨x, y⟩ / (Real.pi / 180)
  hyp x y := Real.sqrt (x * x + y * y)
  len v := Real.sqrt (dot v v)
  fl x := if 2 ^ 31 ≤ |x| then 128 * ((⌊x / 128⌋ : Int) : ℝ) else x
  trunc x := if |x| < 2 ^ 31 then some (if 0 ≤ x then ⌊x⌋ else -⌊-x⌋) else none

theorem hyp_norm (x y : ℝ) : Real.sqrt (x * x + y * y) = ‖(⟨x, y⟩ : ℂ)‖ := by
  rw [Complex.norm_def, Complex.normSq_mk]

theorem maths_real (old : Bool) : Maths (realEnv old) where
  circle a := by
    have := Real.cos_sq_add_sin_sq (a * (Real.pi / 180))
    simp only [realEnv]
    linarith
  hyp_sq x y := by
    simp only [realEnv]
    exact Real.mul_self_sqrt (by nlinarith [mul_self_nonneg x, mul_self_nonneg y])
  hyp_nonneg x y := Real.sqrt_nonneg _
  cos_ang x y := by
    simp only [realEnv]
    rw [div_mul_cancel₀ _ (by positivity), hyp_norm, mul_comm, Complex.norm_mul_cos_arg]
  sin_ang x y := by
    simp only [realEnv]
    rw [div_mul_cancel₀ _ (by positivity), hyp_norm, mul_comm, Complex.norm_mul_sin_arg]
  cos_neg a := by simp only [realEnv, neg_mul, Real.cos_neg]
  sin_neg a := by simp only [realEnv, neg_mul, Real.sin_neg]
  len_sq v := by
    simp only [realEnv]
    exact Real.mul_self_sqrt (by simp only [dot]; nlinarith [mul_self_nonneg v.x, mul_self_nonneg v.y, mul_self_nonneg v.z])

theorem floats_real (old : Bool) : Floats (realEnv old) where
  int k hk := by
    simp only [realEnv]
    rw [if_neg]
    have : (k : ℝ) ≤ 2 ^ 24 := by exact_mod_cast hk
    rw [abs_of_nonneg (Nat.cast_nonneg k)]
    intro h
    norm_num at h this
    linarith
  sub x k _ h2 h3 := by
    simp only [realEnv]
    rw [if_neg]
    rw [abs_of_nonneg (by linarith)]
    have := Nat.cast_nonneg (α := ℝ) k
    intro h
    norm_num at h h2
    linarith
  coarse x h := by
    simp only [realEnv]
    rw [if_pos h]
    exact ⟨_, rfl⟩
  large x h := by
    simp only [realEnv]
    rw [if_pos (le_trans h (le_abs_self x))]
    have : (2 ^ 24 : Int) ≤ ⌊x / 128⌋ := by
      rw [Int.le_floor]
      push_cast
      rw [le_div_iff₀ (by norm_num)]
      norm_num at h ⊢
      exact h
    have h2 : ((2 ^ 24 : Int) : ℝ) ≤ ((⌊x / 128⌋ : Int) : ℝ) := by exact_mod_cast this
    push_cast at h2
    norm_num at h2 ⊢
    linarith
  trunc_pos x h0 h1 := by
    refine ⟨⌊x⌋.toNat, ?_, ?_, ?_⟩
    · simp only [realEnv]
      rw [if_pos (by rw [abs_of_nonneg h0]; exact h1), if_pos h0, Int.toNat_of_nonneg (Int.floor_nonneg.2 h0)]
    · have : (((⌊x⌋.toNat : Nat) : Int) : ℝ) = ((⌊x⌋ : Int) : ℝ) := by rw [Int.toNat_of_nonneg (Int.floor_nonneg.2 h0)]
      push_cast at this
      rw [this]
      exact Int.floor_le x
    · have : (((⌊x⌋.toNat : Nat) : Int) : ℝ) = ((⌊x⌋ : Int) : ℝ) := by rw [Int.toNat_of_nonneg (Int.floor_nonneg.2 h0)]
      push_cast at this
      rw [this]
      exact Int.lt_floor_add_one x
  trunc_neg x h0 h1 := by
    have h2 : 0 ≤ -x := by linarith
    have e : (((⌊-x⌋.toNat : Nat) : Int) : ℝ) = ((⌊-x⌋ : Int) : ℝ) := by rw [Int.toNat_of_nonneg (Int.floor_nonneg.2 h2)]
    push_cast at e
    refine ⟨⌊-x⌋.toNat, ?_, ?_, ?_⟩
    · simp only [realEnv]
      rw [if_pos (by rw [abs_of_nonpos h0]; linarith), Int.toNat_of_nonneg (Int.floor_nonneg.2 h2)]
      by_cases h : 0 ≤ x
      · have : x = 0 := le_antisymm h0 h
        subst this
        simp
      · rw [if_neg h]
    · rw [e]
      exact Int.floor_le _
    · rw [e]
      exact Int.lt_floor_add_one _

end Verif.TexDef
