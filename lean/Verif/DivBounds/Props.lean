import Mathlib.Algebra.Order.Ring.Rat
import Mathlib.Data.Fin.VecNotation
import Mathlib.Tactic.NormNum
import Verif.DivBounds.Lemmas

/-!
C232: the bounds on both sides of a plane hold the parts of the box there, and a plane in the middle has the best measure.
-/

namespace Verif.DivBounds

open Geom Spec
open Geom.Spec (Inside)

variable {K : Type} [Field K] [LinearOrder K] [IsStrictOrderedRing K]

theorem big_ne {eps x : K} (he : 0 < eps) (h : ¬ |x| < eps) : x ≠ 0 := by
  rintro rfl
  simp only [abs_zero] at h
  exact h he

/-- For a box with a volume both bounds are found, and they hold the parts of the box on their side. -/
theorem parts_held {eps : K} (he : 0 < eps) {b : Box K 3} (hs : Solid b) {s : Split K} (hf : TypeFits s) :
    ∃ f g, divide eps b s = some (f, g) ∧ (∀ p, FrontPart b s p → Inside f p) ∧ (∀ p, BackPart b s p → Inside g p) := by
  unfold divide
  cases ht : s.axis with
  | some t =>
    refine ⟨_, _, rfl, ?_, ?_⟩
    · intro p ⟨hi, hp⟩ a
      refine ⟨?_, (hi a).2⟩
      dsimp only
      split_ifs with h
      · subst h
        have := (front_iff s a p).1 hp
        unfold rest at this
        rw [hf a ht a, hf a ht (a + 1), hf a ht (a + 2), if_pos rfl, if_neg (ne1 a), if_neg (ne2 a)] at this
        linarith
      · exact (hi a).1
    · intro p ⟨hi, hp⟩ a
      refine ⟨(hi a).1, ?_⟩
      dsimp only
      split_ifs with h
      · subst h
        have := (back_iff s a p).1 hp
        unfold rest at this
        rw [hf a ht a, hf a ht (a + 1), hf a ht (a + 2), if_pos rfl, if_neg (ne1 a), if_neg (ne2 a)] at this
        linarith
      · exact (hi a).2
  | none =>
    dsimp only
    rw [if_neg (by rintro ⟨a, _, h⟩; exact absurd h (ne_of_lt (hs a)))]
    refine ⟨_, _, rfl, ?_, ?_⟩
    · intro p hp a
      dsimp only
      by_cases h1 : |s.normal a| < eps
      · simp only [h1, if_true]
        exact hp.1 a
      by_cases h2 : s.normal a > 0
      · simp only [h1, h2, if_true, if_false]
        exact ⟨(splitMins_front hs h2).1 p hp, (hp.1 a).2⟩
      · simp only [h1, h2, if_false]
        exact ⟨(hp.1 a).1, (splitMaxs_front hs (lt_of_le_of_ne (not_lt.1 h2) (big_ne he h1))).1 p hp⟩
    · intro p hp a
      dsimp only
      by_cases h1 : |s.normal a| < eps
      · simp only [h1, if_true]
        exact hp.1 a
      by_cases h2 : s.normal a > 0
      · simp only [h1, h2, if_true, if_false]
        exact ⟨(hp.1 a).1, (splitMaxs_back hs h2).1 p hp⟩
      · simp only [h1, h2, if_false]
        exact ⟨(splitMins_back hs (lt_of_le_of_ne (not_lt.1 h2) (big_ne he h1))).1 p hp, (hp.1 a).2⟩

/-- They are no larger than needed, if the plane meets the box and no coordinate of its normal is taken for zero that is not. -/
theorem parts_least {eps : K} (he : 0 < eps) {b : Box K 3} (hs : Solid b) {s : Split K} (hf : TypeFits s)
    (hbig : ∀ a, s.normal a ≠ 0 → eps ≤ |s.normal a|) (hcut : ∃ p, FrontPart b s p ∧ BackPart b s p) :
    ∃ f g, divide eps b s = some (f, g) ∧ LeastBox f (FrontPart b s) ∧ LeastBox g (BackPart b s) := by
  obtain ⟨f, g, hd, h1, h2⟩ := parts_held he hs hf
  refine ⟨f, g, hd, ⟨h1, ?_⟩, ⟨h2, ?_⟩⟩ <;> intro a
  all_goals
    obtain ⟨q, hq1, hq2⟩ := hcut
    have hlt := le_of_lt (hs a)
    unfold divide at hd
    cases ht : s.axis with
    | some t =>
      rw [ht] at hd
      simp only [Option.some.injEq, Prod.mk.injEq] at hd
      obtain ⟨rfl, rfl⟩ := hd
      dsimp only
      have hon : q t = s.dist := by
        have a1 := (front_iff s t q).1 hq1.2
        have a2 := (back_iff s t q).1 hq2.2
        unfold rest at a1 a2
        rw [hf t ht t, hf t ht (t + 1), hf t ht (t + 2), if_pos rfl, if_neg (ne1 t), if_neg (ne2 t)] at a1 a2
        linarith
      have hn := hf t ht a
      by_cases hat : a = t
      · subst hat
        rw [if_pos rfl] at hn
        simp only [if_true]
        first
          | exact ⟨⟨q, hq1, hon⟩, _, move_front a hq1 (b.maxs a) hlt (le_refl _) (by rw [hn]; linarith [(hq1.1 a).2]), Function.update_self ..⟩
          | exact ⟨⟨_, move_back a hq2 (b.mins a) (le_refl _) hlt (by rw [hn]; linarith [(hq1.1 a).1]), Function.update_self ..⟩, q, hq2, hon⟩
      · rw [if_neg hat] at hn
        simp only [hat, if_false]
        first
          | exact ⟨⟨_, move_front a hq1 (b.mins a) (le_refl _) hlt (by rw [hn]; simp), Function.update_self ..⟩,
              _, move_front a hq1 (b.maxs a) hlt (le_refl _) (by rw [hn]; simp), Function.update_self ..⟩
          | exact ⟨⟨_, move_back a hq2 (b.mins a) (le_refl _) hlt (by rw [hn]; simp), Function.update_self ..⟩,
              _, move_back a hq2 (b.maxs a) hlt (le_refl _) (by rw [hn]; simp), Function.update_self ..⟩
    | none =>
      rw [ht] at hd
      dsimp only at hd
      rw [if_neg (by rintro ⟨a, _, h⟩; exact absurd h (ne_of_lt (hs a)))] at hd
      simp only [Option.some.injEq, Prod.mk.injEq] at hd
      obtain ⟨rfl, rfl⟩ := hd
      dsimp only
      by_cases c1 : |s.normal a| < eps
      · have hn : s.normal a = 0 := by
          by_contra hc
          exact absurd c1 (not_lt.2 (hbig a hc))
        simp only [c1, if_true]
        first
          | exact ⟨⟨_, move_front a hq1 (b.mins a) (le_refl _) hlt (by rw [hn]; simp), Function.update_self ..⟩,
              _, move_front a hq1 (b.maxs a) hlt (le_refl _) (by rw [hn]; simp), Function.update_self ..⟩
          | exact ⟨⟨_, move_back a hq2 (b.mins a) (le_refl _) hlt (by rw [hn]; simp), Function.update_self ..⟩,
              _, move_back a hq2 (b.maxs a) hlt (le_refl _) (by rw [hn]; simp), Function.update_self ..⟩
      by_cases c2 : s.normal a > 0
      · simp only [c1, c2, if_true, if_false]
        first
          | exact ⟨(splitMins_front hs c2).2 ⟨q, hq1⟩,
              _, move_front a hq1 (b.maxs a) hlt (le_refl _) (mul_le_mul_of_nonneg_left (hq1.1 a).2 (le_of_lt c2)), Function.update_self ..⟩
          | exact ⟨⟨_, move_back a hq2 (b.mins a) (le_refl _) hlt (mul_le_mul_of_nonneg_left (hq1.1 a).1 (le_of_lt c2)), Function.update_self ..⟩,
              (splitMaxs_back hs c2).2 ⟨q, hq2⟩⟩
      · have c3 : s.normal a < 0 := lt_of_le_of_ne (not_lt.1 c2) (big_ne he c1)
        simp only [c1, c2, if_false]
        first
          | exact ⟨⟨_, move_front a hq1 (b.mins a) (le_refl _) hlt (mul_le_mul_of_nonpos_left (hq1.1 a).1 (le_of_lt c3)), Function.update_self ..⟩,
              (splitMaxs_front hs c3).2 ⟨q, hq1⟩⟩
          | exact ⟨(splitMins_back hs c3).2 ⟨q, hq2⟩,
              _, move_back a hq2 (b.maxs a) hlt (le_refl _) (mul_le_mul_of_nonpos_left (hq1.1 a).2 (le_of_lt c3)), Function.update_self ..⟩

/-- The measure of an axial plane: twice its distance from the middle times the area of the box there. -/
theorem axial_metric (eps : K) (b : Box K 3) (s : Split K) (t : Fin 3) (ht : s.axis = some t) :
    metric eps b s = some |((b.mins t + b.maxs t) - 2 * s.dist) * ((b.maxs (t + 1) - b.mins (t + 1)) * (b.maxs (t + 2) - b.mins (t + 2)))| := by
  unfold metric divide volume
  rw [ht]
  simp only [Option.map_some, Option.some.injEq]
  congr 1
  fin_cases t
  · show (b.maxs 0 - s.dist) * (b.maxs 1 - b.mins 1) * (b.maxs 2 - b.mins 2) - (s.dist - b.mins 0) * (b.maxs 1 - b.mins 1) * (b.maxs 2 - b.mins 2)
      = (b.mins 0 + b.maxs 0 - 2 * s.dist) * ((b.maxs 1 - b.mins 1) * (b.maxs 2 - b.mins 2))
    ring
  · show (b.maxs 0 - b.mins 0) * (b.maxs 1 - s.dist) * (b.maxs 2 - b.mins 2) - (b.maxs 0 - b.mins 0) * (s.dist - b.mins 1) * (b.maxs 2 - b.mins 2)
      = (b.mins 1 + b.maxs 1 - 2 * s.dist) * ((b.maxs 2 - b.mins 2) * (b.maxs 0 - b.mins 0))
    ring
  · show (b.maxs 0 - b.mins 0) * (b.maxs 1 - b.mins 1) * (b.maxs 2 - s.dist) - (b.maxs 0 - b.mins 0) * (b.maxs 1 - b.mins 1) * (s.dist - b.mins 2)
      = (b.mins 2 + b.maxs 2 - 2 * s.dist) * ((b.maxs 0 - b.mins 0) * (b.maxs 1 - b.mins 1))
    ring

/-- Of two planes along the same axis the one nearer to the middle has the better measure. -/
theorem nearer_better (eps : K) {b : Box K 3} (hs : Solid b) (s u : Split K) (t : Fin 3) (h1 : s.axis = some t) (h2 : u.axis = some t) :
    ∃ x y, metric eps b s = some x ∧ metric eps b u = some y ∧
      (x < y ↔ |s.dist - (b.mins t + b.maxs t) / 2| < |u.dist - (b.mins t + b.maxs t) / 2|) := by
  refine ⟨_, _, axial_metric eps b s t h1, axial_metric eps b u t h2, ?_⟩
  have hpos : 0 < (b.maxs (t + 1) - b.mins (t + 1)) * (b.maxs (t + 2) - b.mins (t + 2)) :=
    mul_pos (sub_pos.2 (hs _)) (sub_pos.2 (hs _))
  generalize (b.maxs (t + 1) - b.mins (t + 1)) * (b.maxs (t + 2) - b.mins (t + 2)) = area at hpos ⊢
  rw [abs_mul, abs_mul, abs_of_pos hpos, mul_lt_mul_iff_left₀ hpos]
  have key : ∀ d : K, |b.mins t + b.maxs t - 2 * d| = 2 * |d - (b.mins t + b.maxs t) / 2| := by
    intro d
    rw [show b.mins t + b.maxs t - 2 * d = (-2) * (d - (b.mins t + b.maxs t) / 2) by ring, abs_mul]
    norm_num
  rw [key, key]
  constructor <;> intro h <;> linarith

/-- Without a measure: a sloping plane and a box that is flat along an axis the plane is not along. -/
theorem flat_unknown (eps : K) (b : Box K 3) (s : Split K) (ht : s.axis = none) (a : Fin 3) (hn : eps ≤ |s.normal a|) (hb : b.mins a = b.maxs a) :
    metric eps b s = none := by
  unfold metric divide
  rw [ht]
  dsimp only
  rw [if_pos ⟨a, not_lt.2 hn, hb⟩]
  rfl

/-- An axial plane that misses the box: the bounds in front are larger than the box. -/
theorem axial_outside (eps : K) {b : Box K 3} (s : Split K) (t : Fin 3) (ht : s.axis = some t) (ho : s.dist < b.mins t) :
    ∃ f g, divide eps b s = some (f, g) ∧ f.mins t < b.mins t := by
  unfold divide
  rw [ht]
  exact ⟨_, _, rfl, by simpa using ho⟩

/-! A cube and a sloping plane meet the hypotheses. -/

def exBox : Box ℚ 3 := ⟨fun _ => 0, fun _ => 64⟩
def exPlane : Split ℚ := ⟨![3 / 5, 0, 4 / 5], 64, none⟩

example : Solid exBox ∧ TypeFits exPlane ∧ (∀ a, exPlane.normal a ≠ 0 → (1 / 1000000 : ℚ) ≤ |exPlane.normal a|) ∧
    ∃ p, FrontPart exBox exPlane p ∧ BackPart exBox exPlane p := by
  refine ⟨fun a => by norm_num [exBox], fun t h => by simp [exPlane] at h, ?_, ![64, 0, 32], ⟨?_, ?_⟩, ?_, ?_⟩
  · intro a _
    fin_cases a <;> simp_all [exPlane] <;> norm_num
  · intro a
    fin_cases a <;> simp [exBox]; norm_num
  · simp [Front, exPlane]; norm_num
  · intro a
    fin_cases a <;> simp [exBox]; norm_num
  · simp [Back, exPlane]; norm_num

end Verif.DivBounds
