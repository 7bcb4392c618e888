import Verif.Phong.SmoothLemmas
import Mathlib.Tactic.Positivity

/-!
Lemmas that relate the specification of phong shading to the model.
-/

namespace Verif.Phong

open Verif.Geom

theorem inGroup_iff (t : Tex ℝ) (g : Int) : InGroup t g ↔ g = phongValue t := by
  unfold InGroup phongValue surfLight
  rw [Nat.and_one_is_mod]
  by_cases h : t.group = 0
  · rcases Nat.mod_two_eq_zero_or_one t.native with h2 | h2
    · by_cases hv : t.value = 0 <;> simp [h, h2, hv]
    · simp [h, h2]
  · simp [h]

theorem convexLimit_iff (t : Tex ℝ) (a : ℝ) : ConvexLimit t a ↔ a = phongAngle t := by
  unfold ConvexLimit phongAngle defaultAngle
  rw [inGroup_iff]
  by_cases h : t.angle = 0
  · by_cases hv : phongValue t = 0
    · simp [h, hv]
    · have : ¬(0 = phongValue t) := fun h => hv h.symm
      simp [h, hv, this]
  · simp [h]

theorem concaveLimit_iff (t : Tex ℝ) (a : ℝ) : ConcaveLimit t a ↔ a = concaveAngle t := by
  unfold ConcaveLimit concaveAngle
  rw [convexLimit_iff]
  by_cases h : t.concave = 0 <;> simp [h]

theorem asks_iff (t : Tex ℝ) : Asks t ↔ t.noPhong = false ∧ wantsPhong t = true := by
  unfold Asks wantsPhong
  rw [convexLimit_iff, concaveLimit_iff]
  simp only [Bool.or_eq_true, decide_eq_true_eq, ne_eq]
  rw [eq_comm (a := (0 : ℝ)) (b := phongAngle t), eq_comm (a := (0 : ℝ)) (b := concaveAngle t)]

theorem inFront_iff (b : Bsp ℝ) (f g : Face ℝ) : InFront b f g ↔ concave realOps b f g = true := by
  unfold InFront concave
  rw [decide_eq_true_eq]
  constructor <;> intro h <;> linarith

theorem limitAt_iff (b : Bsp ℝ) (f g : Face ℝ) (t : Tex ℝ) (a : ℝ) :
    LimitAt b f g t a ↔ a = if concave realOps b f g then concaveAngle t else phongAngle t := by
  unfold LimitAt
  rw [inFront_iff, concaveLimit_iff, convexLimit_iff]
  cases concave realOps b f g <;> simp

theorem mask_iff (m x y : Nat) : x &&& m = y &&& m ↔ ∀ bit, m.testBit bit → x.testBit bit = y.testBit bit := by
  constructor
  · intro h bit hb
    have := congrArg (fun n => n.testBit bit) h
    simpa [Nat.testBit_and, hb] using this
  · intro h
    apply Nat.eq_of_testBit_eq
    intro bit
    rw [Nat.testBit_and, Nat.testBit_and]
    cases hb : m.testBit bit
    · simp
    · rw [h bit hb]

/-- Cauchy's inequality for unit vectors. -/
theorem dot_unit_le (a b : Vec ℝ) (ha : IsUnit a) (hb : IsUnit b) : dot a b ≤ 1 ∧ -1 ≤ dot a b := by
  unfold IsUnit dot at *
  constructor
  · nlinarith [sq_nonneg (a.x - b.x), sq_nonneg (a.y - b.y), sq_nonneg (a.z - b.z)]
  · nlinarith [sq_nonneg (a.x + b.x), sq_nonneg (a.y + b.y), sq_nonneg (a.z + b.z)]

theorem degrees_le (a b : Vec ℝ) (ha : IsUnit a) (hb : IsUnit b) (t : ℝ) (h0 : 0 ≤ t) (h1 : t ≤ 180) :
    degrees a b ≤ t ↔ realOps.cosDeg t ≤ dot a b := by
  have hpi := Real.pi_pos
  obtain ⟨d1, d2⟩ := dot_unit_le a b ha hb
  have ht0 : 0 ≤ t * Real.pi / 180 := by positivity
  have ht1 : t * Real.pi / 180 ≤ Real.pi := by
    rw [div_le_iff₀ (by norm_num)]; nlinarith
  have key : realOps.cosDeg t ≤ dot a b ↔ Real.arccos (dot a b) ≤ t * Real.pi / 180 := by
    show Real.cos (t * Real.pi / 180) ≤ dot a b ↔ _
    conv_lhs => rw [← Real.cos_arccos d2 d1]
    exact Real.strictAntiOn_cos.le_iff_ge ⟨ht0, ht1⟩ ⟨Real.arccos_nonneg _, Real.arccos_le_pi _⟩
  rw [key]
  unfold degrees
  rw [div_le_iff₀ hpi, le_div_iff₀ (by norm_num : (0 : ℝ) < 180)]

end Verif.Phong
