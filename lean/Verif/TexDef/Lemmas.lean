import Verif.TexDef.Spec
import Mathlib.Tactic.Ring
import Mathlib.Tactic.LinearCombination
import Mathlib.Tactic.Linarith
import Mathlib.Tactic.FieldSimp
import Mathlib.Tactic.NormNum

/-!
The axes of a texture, and the matrix of the editor of Quake.
-/

namespace Verif.TexDef

open Geom TexDef.Spec

variable {K : Type} [Field K] [LinearOrder K] [IsStrictOrderedRing K]

/-- The three kinds of axes. -/
def axZ (s : K) : Vec K × Vec K × Vec K := (⟨0, 0, s⟩, ⟨1, 0, 0⟩, ⟨0, -1, 0⟩)
def axX (s : K) : Vec K × Vec K × Vec K := (⟨s, 0, 0⟩, ⟨0, 1, 0⟩, ⟨0, 0, -1⟩)
def axY (s : K) : Vec K × Vec K × Vec K := (⟨0, s, 0⟩, ⟨1, 0, 0⟩, ⟨0, 0, -1⟩)

/-- The two entries of a pair of opposite axes. -/
theorem pick_pair (old : Bool) (n : Vec K) (acc : K × Vec K × Vec K × Vec K) (h : 0 ≤ acc.1) (f : K → Vec K × Vec K × Vec K) (c : K)
    (hp : dot n (f 1).1 = c) (hm : dot n (f (-1)).1 = -c) :
    (if |c| > acc.1 ∨ (|c| = acc.1 ∧ old = false) then
      (pick old n (pick old n acc (f 1)) (f (-1))).1 = |c| ∧
        ((pick old n (pick old n acc (f 1)) (f (-1))).2 = f 1 ∨ (pick old n (pick old n acc (f 1)) (f (-1))).2 = f (-1))
    else pick old n (pick old n acc (f 1)) (f (-1)) = acc) := by
  unfold pick
  simp only [hp, hm]
  rcases le_total 0 c with hc | hc
  · rw [abs_of_nonneg hc]
    by_cases h1 : c > acc.1 ∨ (c = acc.1 ∧ old = false)
    · rw [if_pos h1, if_pos h1]
      by_cases h2 : -c > c ∨ (-c = c ∧ old = false)
      · rw [if_pos h2]
        refine ⟨?_, Or.inr rfl⟩
        rcases h2 with h2 | h2
        · linarith
        · exact h2.1
      · rw [if_neg h2]
        exact ⟨rfl, Or.inl rfl⟩
    · rw [if_neg h1, if_neg h1, if_neg]
      rintro (h2 | ⟨h2, h3⟩)
      · exact h1 (Or.inl (by linarith))
      · exact h1 (Or.inr ⟨by linarith, h3⟩)
  · rw [abs_of_nonpos hc]
    by_cases h1 : -c > acc.1 ∨ (-c = acc.1 ∧ old = false)
    · rw [if_pos h1]
      by_cases h2 : c > acc.1 ∨ (c = acc.1 ∧ old = false)
      · have hc0 : c = 0 := by
          rcases h2 with h2 | h2
          · linarith
          · linarith [h2.1]
        rw [if_pos h2]
        by_cases h3 : -c > c ∨ (-c = c ∧ old = false)
        · rw [if_pos h3]; exact ⟨rfl, Or.inr rfl⟩
        · rw [if_neg h3]; exact ⟨by simp [hc0], Or.inl rfl⟩
      · rw [if_neg h2, if_pos h1]
        exact ⟨rfl, Or.inr rfl⟩
    · rw [if_neg h1]
      have h2 : ¬ (c > acc.1 ∨ (c = acc.1 ∧ old = false)) := by
        rintro (h2 | ⟨h2, h3⟩)
        · exact h1 (Or.inl (by linarith))
        · exact h1 (Or.inr ⟨by linarith, h3⟩)
      rw [if_neg h2, if_neg h1]

/-- Which axes are chosen. -/
theorem textureAxis_cases (old : Bool) (n : Vec K) : ∃ s : K, s ≠ 0 ∧
    ((textureAxis old n = axZ s ∧ (∀ p, flat old n p = (p.x, -p.y)) ∧ |n.x| ≤ |n.z| ∧ |n.y| ≤ |n.z|) ∨
     (textureAxis old n = axX s ∧ (∀ p, flat old n p = (p.y, -p.z)) ∧ |n.y| ≤ |n.x| ∧ |n.z| ≤ |n.x|) ∨
     (textureAxis old n = axY s ∧ (∀ p, flat old n p = (p.x, -p.z)) ∧ |n.x| ≤ |n.y| ∧ |n.z| ≤ |n.y|)) := by
  have e : textureAxis old n = (pick old n (pick old n (pick old n (pick old n (pick old n (pick old n
      (0, axZ 1) (axZ 1)) (axZ (-1))) (axX 1)) (axX (-1))) (axY 1)) (axY (-1))).2 := rfl
  have h1 := pick_pair old n (0, axZ 1) (le_refl _) axZ n.z (by simp [axZ, dot]) (by simp [axZ, dot])
  set a1 := pick old n (pick old n (0, axZ 1) (axZ 1)) (axZ (-1)) with ha1
  have b1 : a1.1 = |n.z| ∧ ∃ s : K, s ≠ 0 ∧ a1.2 = axZ s := by
    by_cases c : |n.z| > 0 ∨ (|n.z| = 0 ∧ old = false)
    · rw [if_pos c] at h1
      refine ⟨h1.1, ?_⟩
      rcases h1.2 with h | h
      · exact ⟨1, one_ne_zero, h⟩
      · exact ⟨-1, by norm_num, h⟩
    · rw [if_neg c] at h1
      push Not at c
      rw [h1]
      exact ⟨le_antisymm (abs_nonneg _) c.1, 1, one_ne_zero, rfl⟩
  have h2 := pick_pair old n a1 (by rw [b1.1]; exact abs_nonneg _) axX n.x (by simp [axX, dot]) (by simp [axX, dot])
  set a2 := pick old n (pick old n a1 (axX 1)) (axX (-1)) with ha2
  have b2 : a2.1 = max |n.z| |n.x| ∧ ∃ s : K, s ≠ 0 ∧
      ((a2.2 = axX s ∧ (|n.x| > |n.z| ∨ (|n.x| = |n.z| ∧ old = false))) ∨
       (a2.2 = axZ s ∧ ¬ (|n.x| > |n.z| ∨ (|n.x| = |n.z| ∧ old = false)))) := by
    rw [b1.1] at h2
    by_cases c : |n.x| > |n.z| ∨ (|n.x| = |n.z| ∧ old = false)
    · rw [if_pos c] at h2
      refine ⟨?_, ?_⟩
      · rw [h2.1, max_eq_right]
        rcases c with c | c
        · exact le_of_lt c
        · exact le_of_eq c.1.symm
      · rcases h2.2 with h | h
        · exact ⟨1, one_ne_zero, Or.inl ⟨h, c⟩⟩
        · exact ⟨-1, by norm_num, Or.inl ⟨h, c⟩⟩
    · rw [if_neg c] at h2
      obtain ⟨b1e, s, hs, b1s⟩ := b1
      refine ⟨?_, s, hs, Or.inr ⟨by rw [h2]; exact b1s, c⟩⟩
      rw [h2, b1e, max_eq_left]
      by_contra h'
      exact c (Or.inl (not_le.1 h'))
  have h3 := pick_pair old n a2 (by rw [b2.1]; exact le_trans (abs_nonneg _) (le_max_left _ _)) axY n.y
    (by simp [axY, dot]) (by simp [axY, dot])
  rw [e]
  set a3 := pick old n (pick old n a2 (axY 1)) (axY (-1)) with ha3
  rw [b2.1] at h3
  obtain ⟨_, s, hs, b2c⟩ := b2
  by_cases c : |n.y| > max |n.z| |n.x| ∨ (|n.y| = max |n.z| |n.x| ∧ old = false)
  · rw [if_pos c] at h3
    have hf : ∀ p, flat old n p = (p.x, -p.z) := by
      intro p
      unfold flat
      cases old with
      | true =>
        simp only [Bool.true_eq_false, and_false, or_false, gt_iff_lt, max_lt_iff] at c
        simp only [if_true]
        rw [if_neg (fun h => absurd h.2 (not_le.2 c.1)), if_neg (not_le.2 c.2)]
      | false =>
        simp only [and_true, gt_iff_lt] at c
        have c' : max |n.z| |n.x| ≤ |n.y| := by
          rcases c with c | c
          · exact le_of_lt c
          · exact le_of_eq c.symm
        rw [max_le_iff] at c'
        simp only [Bool.false_eq_true, if_false]
        rw [if_pos ⟨c'.2, c'.1⟩]
    have hm : |n.x| ≤ |n.y| ∧ |n.z| ≤ |n.y| := by
      have c' : max |n.z| |n.x| ≤ |n.y| := by
        rcases c with c | c
        · exact le_of_lt c
        · exact le_of_eq c.1.symm
      rw [max_le_iff] at c'
      exact ⟨c'.2, c'.1⟩
    rcases h3.2 with h | h
    · exact ⟨1, one_ne_zero, Or.inr (Or.inr ⟨h, hf, hm⟩)⟩
    · exact ⟨-1, by norm_num, Or.inr (Or.inr ⟨h, hf, hm⟩)⟩
  · rw [if_neg c] at h3
    rw [h3]
    push Not at c
    rcases b2c with ⟨b, hb⟩ | ⟨b, hb⟩
    · have hb0 : |n.z| ≤ |n.x| := by
        rcases hb with hb | hb
        · exact le_of_lt hb
        · exact le_of_eq hb.1.symm
      refine ⟨s, hs, Or.inr (Or.inl ⟨b, ?_, ?_, hb0⟩)⟩
      swap
      · rw [max_eq_right hb0] at c
        exact c.1
      intro p
      unfold flat
      cases old with
      | true =>
        simp only [Bool.true_eq_false, and_false, or_false, gt_iff_lt] at hb
        simp only [if_true]
        rw [if_neg (fun h => absurd h.1 (not_le.2 hb)), if_pos]
        rw [max_eq_right (le_of_lt hb)] at c
        exact c.1
      | false =>
        have hb' : |n.z| ≤ |n.x| := by
          rcases hb with hb | hb
          · exact le_of_lt hb
          · exact le_of_eq hb.1.symm
        rw [max_eq_right hb'] at c
        have : |n.y| < |n.x| := lt_of_le_of_ne c.1 fun h => c.2 h rfl
        simp only [Bool.false_eq_true, if_false]
        rw [if_neg (fun h => absurd h.1 (not_le.2 this)), if_pos hb']
    · push Not at hb
      rw [max_eq_left hb.1] at c
      refine ⟨s, hs, Or.inl ⟨b, ?_, hb.1, c.1⟩⟩
      intro p
      unfold flat
      cases old with
      | true =>
        simp only [if_true]
        rw [if_pos ⟨hb.1, c.1⟩]
      | false =>
        have h1 : |n.x| < |n.z| := lt_of_le_of_ne hb.1 fun h => hb.2 h rfl
        have h2 : |n.y| < |n.z| := lt_of_le_of_ne c.1 fun h => c.2 h rfl
        simp only [Bool.false_eq_true, if_false]
        rw [if_neg (fun h => absurd h.2 (not_le.2 h2)), if_neg (not_le.2 h1)]

theorem quakeEd_uv (env : Env K) (n : Vec K) (e : Ed K) (p : Vec K) : (quakeEd env n e).uvs p = edUV env n e p := by
  have hs : ∀ s : K, (if s = 0 then (1 : K) else s) = sane s := by
    intro s; unfold sane; by_cases h : s = 0 <;> simp [h]
  unfold edUV
  simp only [hs]
  obtain ⟨s, _, ⟨h, hf, _⟩ | ⟨h, hf, _⟩ | ⟨h, hf, _⟩⟩ := textureAxis_cases env.old n <;>
    rw [hf] <;>
    simp [quakeEd, h, axX, axY, axZ, firstAxis, turn, at_, put, Tex.uvs] <;>
    constructor <;> ring

theorem quakeEd_new (env : Env K) (n : Vec K) (e : Ed K) : quakeEdNew env n e = quakeEd env n e := by
  obtain ⟨s, hs, ⟨h, _⟩ | ⟨h, _⟩ | ⟨h, _⟩⟩ := textureAxis_cases env.old n <;>
    simp [quakeEd, quakeEdNew, h, axX, axY, axZ, firstAxis, turn, at_, put, axisFlips, project, stAxes, hs, M2.mul, scale2, rot2] <;>
    refine ⟨⟨?_, ?_⟩, ?_, ?_⟩ <;> ring

/-- The signs of the axes. -/
theorem flips_eq (env : Env K) (n : Vec K) : axisFlips env n = ⟨1, 0, 0, -1⟩ := by
  obtain ⟨s, hs, ⟨h, _⟩ | ⟨h, _⟩ | ⟨h, _⟩⟩ := textureAxis_cases env.old n <;>
    simp [h, axX, axY, axZ, at_, axisFlips, project, stAxes, hs]

theorem project_eq (env : Env K) (n p : Vec K) :
    project (textureAxis env.old n).1 p = ((flat env.old n p).1, -(flat env.old n p).2) := by
  obtain ⟨s, hs, ⟨h, hf, _⟩ | ⟨h, hf, _⟩ | ⟨h, hf, _⟩⟩ := textureAxis_cases env.old n <;>
    rw [hf, h] <;> simp [axX, axY, axZ, at_, project, stAxes, hs]

/-- The matrix of a definition. -/
def edMat (env : Env K) (e : Ed K) : M2 K :=
  ⟨env.cosd e.rotate / sane e.scale.1, env.sind e.rotate / sane e.scale.1, env.sind e.rotate / sane e.scale.2,
    -(env.cosd e.rotate / sane e.scale.2)⟩

theorem edUV_mat (env : Env K) (n : Vec K) (e : Ed K) (p : Vec K) : edUV env n e p =
    (((edMat env e).app (project (textureAxis env.old n).1 p)).1 + e.shift.1,
     ((edMat env e).app (project (textureAxis env.old n).1 p)).2 + e.shift.2) := by
  have hs : ∀ s : K, (if s = 0 then (1 : K) else s) = sane s := by
    intro s; unfold sane; by_cases h : s = 0 <;> simp [h]
  rw [project_eq]
  unfold edUV edMat M2.app
  simp only [hs, Prod.mk.injEq]
  constructor <;> ring

omit [LinearOrder K] [IsStrictOrderedRing K] in
theorem vec_zero {w : Vec K} (a : w.x = 0) (b : w.y = 0) (c : w.z = 0) : w = ⟨0, 0, 0⟩ := by
  obtain ⟨x, y, z⟩ := w
  simp only at a b c
  rw [a, b, c]

omit [LinearOrder K] [IsStrictOrderedRing K] in
/-- The cross product of the edges of a face is in the direction of the normal. -/
theorem cross_par {n p0 p1 p2 : Vec K} (h1 : OnFace n p0 p1) (h2 : OnFace n p0 p2) :
    BrushBsp.cross n (BrushBsp.cross (Place.sub p1 p0) (Place.sub p2 p0)) = ⟨0, 0, 0⟩ := by
  simp only [OnFace, dot] at h1 h2
  simp only [BrushBsp.cross, Place.sub, Vec.mk.injEq]
  refine ⟨?_, ?_, ?_⟩
  · linear_combination (p1.x - p0.x) * h2 - (p2.x - p0.x) * h1
  · linear_combination (p1.y - p0.y) * h2 - (p2.y - p0.y) * h1
  · linear_combination (p1.z - p0.z) * h2 - (p2.z - p0.z) * h1

/-- The three points of a face are not in a line when projected. -/
theorem det_ne {env : Env K} {n p0 p1 p2 : Vec K} (hn : n ≠ ⟨0, 0, 0⟩) (hc : Corners n p0 p1 p2) :
    let q := project (textureAxis env.old n).1
    ((q p1).1 - (q p0).1) * ((q p2).2 - (q p0).2) - ((q p1).2 - (q p0).2) * ((q p2).1 - (q p0).1) ≠ 0 := by
  intro q
  obtain ⟨h1, h2, h3⟩ := hc
  have hp := cross_par h1 h2
  set w := BrushBsp.cross (Place.sub p1 p0) (Place.sub p2 p0) with hw
  have wx : w.x = (p1.y - p0.y) * (p2.z - p0.z) - (p1.z - p0.z) * (p2.y - p0.y) := rfl
  have wy : w.y = (p1.z - p0.z) * (p2.x - p0.x) - (p1.x - p0.x) * (p2.z - p0.z) := rfl
  have wz : w.z = (p1.x - p0.x) * (p2.y - p0.y) - (p1.y - p0.y) * (p2.x - p0.x) := rfl
  simp only [BrushBsp.cross, Vec.mk.injEq] at hp
  obtain ⟨e1, e2, e3⟩ := hp
  intro h
  have zero : ∀ {a b : K}, |a| ≤ |b| → b = 0 → a = 0 := by
    intro a b hab hb
    rw [hb, abs_zero] at hab
    exact abs_eq_zero.1 (le_antisymm hab (abs_nonneg _))
  have nz : ¬ (n.x = 0 ∧ n.y = 0 ∧ n.z = 0) := by
    rintro ⟨a, b, c⟩
    exact hn (vec_zero a b c)
  apply h3
  have close : w.x = 0 → w.y = 0 → w.z = 0 → w = ⟨0, 0, 0⟩ := by
    exact vec_zero
  obtain ⟨s, _, ⟨ha, hf, m1, m2⟩ | ⟨ha, hf, m1, m2⟩ | ⟨ha, hf, m1, m2⟩⟩ := textureAxis_cases env.old n
  · simp only [q, project_eq, hf] at h
    have w0 : w.z = 0 := by rw [wz]; linear_combination h
    have hnz : n.z ≠ 0 := fun h0 => nz ⟨zero m1 h0, zero m2 h0, h0⟩
    rw [w0] at e1 e2
    refine close ?_ ?_ w0
    · exact (mul_eq_zero.1 (show n.z * w.x = 0 by linear_combination e2)).resolve_left hnz
    · exact (mul_eq_zero.1 (show n.z * w.y = 0 by linear_combination -e1)).resolve_left hnz
  · simp only [q, project_eq, hf] at h
    have w0 : w.x = 0 := by rw [wx]; linear_combination h
    have hnz : n.x ≠ 0 := fun h0 => nz ⟨h0, zero m1 h0, zero m2 h0⟩
    rw [w0] at e2 e3
    refine close w0 ?_ ?_
    · exact (mul_eq_zero.1 (show n.x * w.y = 0 by linear_combination e3)).resolve_left hnz
    · exact (mul_eq_zero.1 (show n.x * w.z = 0 by linear_combination -e2)).resolve_left hnz
  · simp only [q, project_eq, hf] at h
    have w0 : w.y = 0 := by rw [wy]; linear_combination -h
    have hnz : n.y ≠ 0 := fun h0 => nz ⟨zero m1 h0, h0, zero m2 h0⟩
    rw [w0] at e1 e3
    refine close ?_ w0 ?_
    · exact (mul_eq_zero.1 (show n.y * w.x = 0 by linear_combination -e3)).resolve_left hnz
    · exact (mul_eq_zero.1 (show n.y * w.z = 0 by linear_combination e1)).resolve_left hnz

/-- The matrix is found from the three points. -/
theorem planeToUV_eq {env : Env K} {n p0 p1 p2 : Vec K} (hn : n ≠ ⟨0, 0, 0⟩) (hc : Corners n p0 p1 p2) {x : Tex K} {e : Ed K}
    (h0 : x.uvs p0 = edUV env n e p0) (h1 : x.uvs p1 = edUV env n e p1) (h2 : x.uvs p2 = edUV env n e p2) :
    planeToUV env n x p0 p1 p2 = edMat env e := by
  have hd := det_ne (env := env) hn hc
  rw [edUV_mat] at h0 h1 h2
  unfold planeToUV
  simp only at hd
  simp only [h0, h1, h2]
  generalize project (textureAxis env.old n).1 p0 = q0 at *
  generalize project (textureAxis env.old n).1 p1 = q1 at *
  generalize project (textureAxis env.old n).1 p2 = q2 at *
  generalize edMat env e = m at *
  obtain ⟨a, b, c, d⟩ := m
  simp only [M2.app, M2.mk.injEq]
  refine ⟨?_, ?_, ?_, ?_⟩ <;> rw [div_eq_iff hd] <;> ring

/-- The cosine and sine of the angle of a point of the circle. -/
theorem ang_unit {env : Env K} (hm : Maths env) {c s : K} (h : c * c + s * s = 1) :
    env.cosd (env.angd s c) = c ∧ env.sind (env.angd s c) = s := by
  have h1 : env.hyp c s = 1 := by
    have h2 : (env.hyp c s - 1) * (env.hyp c s + 1) = 0 := by linear_combination hm.hyp_sq c s + h
    rcases mul_eq_zero.1 h2 with h3 | h3
    · linear_combination h3
    · have := hm.hyp_nonneg c s
      linarith
  have a := hm.cos_ang c s
  have b := hm.sin_ang c s
  rw [h1, mul_one] at a b
  exact ⟨a, b⟩

theorem sane_ne (s : K) : sane s ≠ 0 := by
  unfold sane
  split
  · assumption
  · exact one_ne_zero

/-- Perpendicular rows have no shear. -/
theorem unshear_eq (env : Env K) (m : M2 K) (h : m.a * m.c + m.b * m.d = 0) : unshear env m = .ok m := by
  have hd : dot2 (normalize2 env (m.a, m.b)) (normalize2 env (m.c, m.d)) = 0 := by
    unfold normalize2
    simp only [dot2]
    split <;> split <;> simp only [div_mul_div_comm, ← add_div]
    · rw [h, zero_div]
    · rw [div_mul_eq_mul_div, div_mul_eq_mul_div, ← add_div, h, zero_div]
    · rw [← mul_div_assoc, ← mul_div_assoc, ← add_div, h, zero_div]
    · exact h
  unfold unshear
  simp only [hd, abs_zero]
  rw [if_neg]
  have : (0 : K) ≤ 1 / 1000 := by positivity
  exact not_lt.2 this

/-- The length of a row. -/
theorem hyp_scale {env : Env K} (hm : Maths env) {c s k : K} (h : c * c + s * s = 1) (hk : k ≠ 0) :
    env.hyp (c / k) (s / k) = 1 / |k| := by
  have h1 := hm.hyp_sq (c / k) (s / k)
  have h2 := hm.hyp_nonneg (c / k) (s / k)
  have hp : 0 < 1 / |k| := by positivity
  have h3 : env.hyp (c / k) (s / k) * env.hyp (c / k) (s / k) = 1 / |k| * (1 / |k|) := by
    rw [h1, div_mul_div_comm, div_mul_div_comm, ← add_div, h, div_mul_div_comm, one_mul, abs_mul_abs_self]
  have h4 : (env.hyp (c / k) (s / k) - 1 / |k|) * (env.hyp (c / k) (s / k) + 1 / |k|) = 0 := by linear_combination h3
  rcases mul_eq_zero.1 h4 with h5 | h5
  · linear_combination h5
  · linarith

/-- The sign of a number that is not 0. -/
theorem sign_of {k : K} (hk : k ≠ 0) : ∃ σ : K, (σ = -1 ∨ σ = 1) ∧ |k| = σ * k := by
  rcases lt_or_gt_of_ne hk with h | h
  · exact ⟨-1, Or.inl rfl, by rw [abs_of_neg h]; ring⟩
  · exact ⟨1, Or.inr rfl, by rw [abs_of_pos h]; ring⟩

/-- A guess that is accepted gives about the same matrix. -/
theorem guess_close {env : Env K} {n : Vec K} {m : M2 K} {ax ay : K} (hx : ax ≠ 0) (hy : ay ≠ 0) {sg : K × K}
    (h1 : sg.1 = -1 ∨ sg.1 = 1) (h2 : sg.2 = -1 ∨ sg.2 = 1) {r : K × K × K}
    (h : guess env m (axisFlips env n) ax ay sg = some r) (sh : K × K) :
    let m' := edMat env ⟨sh, r.1, (r.2.1, r.2.2)⟩
    |m.a - m'.a| < 1 / 1000 ∧ |m.b - m'.b| < 1 / 1000 ∧ |m.c - m'.c| < 1 / 1000 ∧ |m.d - m'.d| < 1 / 1000 := by
  unfold guess at h
  rw [flips_eq] at h
  simp only [Option.ite_none_right_eq_some, Option.some.injEq] at h
  generalize env.angd _ _ = ang at h
  obtain ⟨⟨ha, hc, hb, hd⟩, hr⟩ := h
  subst hr
  have e1 : sane (sg.1 / ax) = sg.1 / ax := by
    unfold sane
    rw [if_pos]
    rcases h1 with h1 | h1 <;> rw [h1] <;> simp [hx]
  have e2 : sane (sg.2 / ay) = sg.2 / ay := by
    unfold sane
    rw [if_pos]
    rcases h2 with h2 | h2 <;> rw [h2] <;> simp [hy]
  have f1 : ∀ z : K, z / (sg.1 / ax) = sg.1 * ax * z := by
    intro z
    rcases h1 with h1 | h1 <;> rw [h1] <;> field_simp
  have f2 : ∀ z : K, z / (sg.2 / ay) = sg.2 * ay * z := by
    intro z
    rcases h2 with h2 | h2 <;> rw [h2] <;> field_simp
  simp only [edMat, e1, e2, f1, f2]
  simp only [scale2, rot2, M2.mul] at ha hb hc hd
  refine ⟨?_, ?_, ?_, ?_⟩
  · convert ha using 3; ring
  · convert hb using 3; ring
  · convert hc using 3; ring
  · convert hd using 3; ring

/-- The guess with the right signs is accepted. -/
theorem guess_right {env : Env K} (hm : Maths env) {n : Vec K} {c s kx ky : K} (h : c * c + s * s = 1) (hx : kx ≠ 0) (hy : ky ≠ 0)
    {σ τ : K} (h1 : σ = -1 ∨ σ = 1) (h2 : τ = -1 ∨ τ = 1) (hσ : |kx| = σ * kx) (hτ : |ky| = τ * ky) :
    ∃ r, guess env ⟨c / kx, s / kx, s / ky, -(c / ky)⟩ (axisFlips env n) (1 / |kx|) (1 / |ky|) (σ, τ) = some r := by
  have hσ0 : σ ≠ 0 := by rcases h1 with h1 | h1 <;> rw [h1] <;> norm_num
  have hτ0 : τ ≠ 0 := by rcases h2 with h2 | h2 <;> rw [h2] <;> norm_num
  have hσ2 : σ * σ = 1 := by rcases h1 with h1 | h1 <;> rw [h1] <;> norm_num
  have hτ2 : τ * τ = 1 := by rcases h2 with h2 | h2 <;> rw [h2] <;> norm_num
  unfold guess
  rw [flips_eq]
  have g1 : (((scale2 σ τ).inv.mul (((scale2 (1 / |kx|) (1 / |ky|)).inv.mul ⟨c / kx, s / kx, s / ky, -(c / ky)⟩).mul
      (M2.inv ⟨1, 0, 0, -1⟩))).app (1, 0)) = (c, s) := by
    rw [hσ, hτ]
    simp only [scale2, M2.inv, M2.mul, M2.app]
    simp only [mul_zero, zero_mul, add_zero, zero_add, sub_zero, mul_one, neg_zero, zero_div]
    refine Prod.ext ?_ ?_ <;> simp only <;> field_simp
  simp only [g1]
  obtain ⟨k1, k2⟩ := ang_unit hm h
  rw [k1.symm] at h
  simp only [rot2, k1, k2, hσ, hτ]
  have e1 : σ * (1 / (σ * kx)) = 1 / kx := by field_simp
  have e2 : τ * (1 / (τ * ky)) = 1 / ky := by field_simp
  rw [if_pos]
  · exact ⟨_, rfl⟩
  have z : (0 : K) < 1 / 1000 := by positivity
  simp only [scale2, M2.mul, mul_zero, zero_mul, add_zero, zero_add, mul_one, e1, e2]
  refine ⟨?_, ?_, ?_, ?_⟩
  · rw [show c / kx - 1 / kx * c = 0 by ring, abs_zero]; exact z
  · rw [show s / ky - 1 / ky * s = 0 by ring, abs_zero]; exact z
  · rw [show s / kx - 1 / kx * -s * -1 = 0 by ring, abs_zero]; exact z
  · rw [show -(c / ky) - 1 / ky * c * -1 = 0 by ring, abs_zero]; exact z

/-- A guess that is accepted is right unless the texture is stretched very far. -/
theorem guess_exact {env : Env K} (hm : Maths env) {n : Vec K} {c s kx ky : K} (h : c * c + s * s = 1) (hx : kx ≠ 0) (hy : ky ≠ 0)
    (hkx : |kx| ≤ 1000) (hky : |ky| ≤ 1000) {sg : K × K} (h1 : sg.1 = -1 ∨ sg.1 = 1) (h2 : sg.2 = -1 ∨ sg.2 = 1) {r : K × K × K}
    (hg : guess env ⟨c / kx, s / kx, s / ky, -(c / ky)⟩ (axisFlips env n) (1 / |kx|) (1 / |ky|) sg = some r) :
    edMat env ⟨(0, 0), r.1, (r.2.1, r.2.2)⟩ = ⟨c / kx, s / kx, s / ky, -(c / ky)⟩ := by
  obtain ⟨a1, a2, a3, a4⟩ := guess_close (by positivity) (by positivity) h1 h2 hg (0, 0)
  obtain ⟨σ, s1, hσ⟩ := sign_of hx
  obtain ⟨τ, s2, hτ⟩ := sign_of hy
  have hσ0 : σ ≠ 0 := by rcases s1 with h1 | h1 <;> rw [h1] <;> norm_num
  have hτ0 : τ ≠ 0 := by rcases s2 with h1 | h1 <;> rw [h1] <;> norm_num
  have hσ2 : σ * σ = 1 := by rcases s1 with h1 | h1 <;> rw [h1] <;> norm_num
  have hτ2 : τ * τ = 1 := by rcases s2 with h1 | h1 <;> rw [h1] <;> norm_num
  have g1 : sg.1 * sg.1 = 1 := by rcases h1 with h1 | h1 <;> rw [h1] <;> norm_num
  have g2 : sg.2 * sg.2 = 1 := by rcases h2 with h1 | h1 <;> rw [h1] <;> norm_num
  have n1 : sg.1 ≠ 0 := by rcases h1 with h1 | h1 <;> rw [h1] <;> norm_num
  have n2 : sg.2 ≠ 0 := by rcases h2 with h1 | h1 <;> rw [h1] <;> norm_num
  have ix : (1 : K) / |kx| = σ / kx := by
    rw [hσ, div_eq_div_iff (mul_ne_zero hσ0 hx) hx]
    linear_combination (-kx) * hσ2
  have iy : (1 : K) / |ky| = τ / ky := by
    rw [hτ, div_eq_div_iff (mul_ne_zero hτ0 hy) hy]
    linear_combination (-ky) * hτ2
  have hr : r.1 = env.angd (sg.2 * τ * s) (sg.1 * σ * c) ∧ r.2.1 = sg.1 / (1 / |kx|) ∧ r.2.2 = sg.2 / (1 / |ky|) := by
    unfold guess at hg
    rw [flips_eq] at hg
    simp only [Option.ite_none_right_eq_some, Option.some.injEq] at hg
    obtain ⟨-, hg⟩ := hg
    subst hg
    refine ⟨?_, rfl, rfl⟩
    simp only
    rw [ix, iy]
    simp only [scale2, M2.inv, M2.mul, M2.app]
    simp only [mul_zero, zero_mul, add_zero, zero_add, sub_zero, mul_one, neg_zero, zero_div]
    congr 1
    · rcases h2 with h1 | h1 <;> rcases s2 with h2 | h2 <;> rw [h1, h2] <;> field_simp
    · rcases h1 with h1 | h1 <;> rcases s1 with h2 | h2 <;> rw [h1, h2] <;> field_simp
  have hu : sg.1 * σ * c * (sg.1 * σ * c) + sg.2 * τ * s * (sg.2 * τ * s) = 1 := by
    linear_combination h + c * c * σ * σ * g1 + c * c * hσ2 + s * s * τ * τ * g2 + s * s * hτ2
  obtain ⟨k1, k2⟩ := ang_unit hm hu
  have q1 : sane r.2.1 = sg.1 * σ * kx := by
    rw [hr.2.1, ix]
    unfold sane
    rw [if_pos]
    · rw [div_div_eq_mul_div, div_eq_iff hσ0]
      linear_combination (-sg.1 * kx) * hσ2
    · exact div_ne_zero n1 (div_ne_zero hσ0 hx)
  have q2 : sane r.2.2 = sg.2 * τ * ky := by
    rw [hr.2.2, iy]
    unfold sane
    rw [if_pos]
    · rw [div_div_eq_mul_div, div_eq_iff hτ0]
      linear_combination (-sg.2 * ky) * hτ2
    · exact div_ne_zero n2 (div_ne_zero hτ0 hy)
  simp only [edMat, q1, q2, hr.1, k1, k2] at a1 a2 a3 a4 ⊢
  have hρ : sg.1 * σ = 1 ∨ sg.1 * σ = -1 := by
    rcases h1 with h1 | h1 <;> rcases s1 with h2 | h2 <;> rw [h1, h2] <;> norm_num
  have hρ' : sg.2 * τ = 1 ∨ sg.2 * τ = -1 := by
    rcases h2 with h1 | h1 <;> rcases s2 with h2 | h2 <;> rw [h1, h2] <;> norm_num
  have small : ∀ {u k : K}, k ≠ 0 → |k| ≤ 1000 → |2 * (u / k)| < 1 / 1000 → u * u < 1 / 4 := by
    intro u k hk0 hk hu
    have e : |u| = |u / k| * |k| := by rw [← abs_mul, div_mul_cancel₀ u hk0]
    rw [abs_mul, abs_of_pos (by norm_num : (0 : K) < 2)] at hu
    have hlt : |u| < 1 / 2 := by
      rw [e]
      have h3 := mul_le_mul_of_nonneg_left hk (abs_nonneg (u / k))
      linarith
    rw [← abs_mul_abs_self]
    have := abs_nonneg u
    nlinarith
  have bad : |2 * (s / kx)| < 1 / 1000 → |2 * (c / ky)| < 1 / 1000 → False := by
    intro b1 b2
    have := small hx hkx b1
    have := small hy hky b2
    linarith
  rcases hρ with e1 | e1 <;> rcases hρ' with e2 | e2 <;> simp only [e1, e2] at a1 a2 a3 a4 ⊢
  · simp only [one_mul]
  · exfalso
    refine bad ?_ ?_
    · convert a2 using 2
      field_simp
      ring
    · rw [← abs_neg]
      convert a4 using 2
      field_simp
      ring
  · exfalso
    refine bad ?_ ?_
    · convert a2 using 2
      field_simp
      ring
    · rw [← abs_neg]
      convert a4 using 2
      field_simp
      ring
  · simp only [neg_one_mul, neg_div_neg_eq]

/-- `reverse` finds about the matrix of a definition. -/
theorem reverse_close {env : Env K} (hm : Maths env) (n : Vec K) (e : Ed K) (sh : K × K) :
    ∃ r, reverse env (edMat env e) n = .ok r ∧
      (|sane e.scale.1| ≤ 1000 → |sane e.scale.2| ≤ 1000 → edMat env ⟨(0, 0), r.1, (r.2.1, r.2.2)⟩ = edMat env e) ∧
      (let m' := edMat env ⟨sh, r.1, (r.2.1, r.2.2)⟩
       |(edMat env e).a - m'.a| < 1 / 1000 ∧ |(edMat env e).b - m'.b| < 1 / 1000 ∧
         |(edMat env e).c - m'.c| < 1 / 1000 ∧ |(edMat env e).d - m'.d| < 1 / 1000) := by
  have hx := sane_ne e.scale.1
  have hy := sane_ne e.scale.2
  have hc := hm.circle e.rotate
  obtain ⟨σ, h1, hσ⟩ := sign_of hx
  obtain ⟨τ, h2, hτ⟩ := sign_of hy
  obtain ⟨r0, hr0⟩ := guess_right hm (n := n) hc hx hy h1 h2 hσ hτ
  have hs : unshear env (edMat env e) = .ok (edMat env e) := by
    refine unshear_eq env _ ?_
    simp only [edMat]
    rw [div_mul_div_comm, ← neg_div, div_mul_div_comm, ← add_div]
    rw [show env.cosd e.rotate * env.sind e.rotate + env.sind e.rotate * -env.cosd e.rotate = 0 by ring, zero_div]
  have hax : env.hyp (edMat env e).a (edMat env e).b = 1 / |sane e.scale.1| := hyp_scale hm hc hx
  have hay : env.hyp (edMat env e).c (edMat env e).d = 1 / |sane e.scale.2| := by
    have := hyp_scale hm (c := env.sind e.rotate) (s := -env.cosd e.rotate) (k := sane e.scale.2) (by linear_combination hc) hy
    simp only [edMat, ← neg_div]
    exact this
  have px : (1 : K) / |sane e.scale.1| ≠ 0 := by positivity
  have py : (1 : K) / |sane e.scale.2| ≠ 0 := by positivity
  have hf : ∃ r, ([(-1, -1), (-1, 1), (1, -1), (1, 1)] : List (K × K)).findSome?
      (guess env (edMat env e) (axisFlips env n) (1 / |sane e.scale.1|) (1 / |sane e.scale.2|)) = some r := by
    rw [← Option.isSome_iff_exists, List.isSome_findSome?]
    rw [List.any_eq_true]
    refine ⟨(σ, τ), ?_, ?_⟩
    · rcases h1 with h1 | h1 <;> rcases h2 with h2 | h2 <;> simp [h1, h2]
    · rw [Option.isSome_iff_exists]
      exact ⟨r0, hr0⟩
  obtain ⟨r, hr⟩ := hf
  refine ⟨r, ?_, ?_⟩
  · unfold reverse
    rw [hs]
    simp only [Outcome.ok_bind, hax, hay, hr, Option.getD_some]
  · obtain ⟨sg, hsg, hg⟩ := List.exists_of_findSome?_eq_some hr
    have hs1 : sg.1 = -1 ∨ sg.1 = 1 := by
      simp only [List.mem_cons, List.not_mem_nil, or_false] at hsg
      rcases hsg with h | h | h | h <;> simp [h]
    have hs2 : sg.2 = -1 ∨ sg.2 = 1 := by
      simp only [List.mem_cons, List.not_mem_nil, or_false] at hsg
      rcases hsg with h | h | h | h <;> simp [h]
    exact ⟨fun hkx hky => guess_exact hm hc hx hy hkx hky hs1 hs2 hg, guess_close px py hs1 hs2 hg sh⟩

end Verif.TexDef
