import Mathlib.Tactic.LinearCombination
import Mathlib.Tactic.NormNum
import Mathlib.Tactic.Linarith
import Mathlib.Tactic.Ring
import Mathlib.Algebra.Order.Field.Basic
import Mathlib.Data.List.Forall2
import Verif.TexValid.Spec
import Verif.TexDef.Lemmas

namespace Verif.TexValid

open Geom TexDef Spec
open TexDef.Spec (flat)
open BrushBsp (cross)

variable {K : Type} [Field K] [LinearOrder K] [IsStrictOrderedRing K]

omit [IsStrictOrderedRing K] in
theorem dot_normalize (env : Env K) (v n : Vec K) (h : env.len v ≠ 0) : dot (normalize env v) n = dot v n / env.len v := by
  unfold normalize
  rw [if_pos h]
  simp only [dot]
  field_simp

/-- The test is passed only if the vectors and the normal are not in a plane. -/
theorem isValid_det {env : Env K} {eps : K} (he : 0 < eps) {n : Vec K} {x : Tex K} (h : isValid env eps n x = true) :
    dot (cross x.s.v x.t.v) n ≠ 0 := by
  intro h0
  unfold isValid at h
  by_cases hl : env.len (cross x.s.v x.t.v) ≠ 0
  · simp only [dot_normalize env _ n hl, h0, zero_div, abs_zero, he, if_true, Bool.false_eq_true] at h
  · have : normalize env (cross x.s.v x.t.v) = cross x.s.v x.t.v := by
      unfold normalize
      rw [if_neg hl]
    simp only [this, h0, abs_zero, he, if_true, Bool.false_eq_true] at h

theorem faithful_of_det {n : Vec K} {x : Tex K} (h : dot (cross x.s.v x.t.v) n ≠ 0) : Faithful n x := by
  intro p q hn hu
  obtain ⟨⟨⟨a, b, c⟩, d⟩, ⟨⟨a', b', c'⟩, d'⟩⟩ := x
  simp only [Tex.uvs, Prod.mk.injEq] at hu
  obtain ⟨h1, h2⟩ := hu
  simp only [dot, cross] at h hn
  obtain ⟨px, py, pz⟩ := p
  obtain ⟨qx, qy, qz⟩ := q
  obtain ⟨nx, ny, nz⟩ := n
  simp only at h h1 h2 hn
  have kx : ((b * c' - c * b') * nx + (c * a' - a * c') * ny + (a * b' - b * a') * nz) * (px - qx) = 0 := by
    linear_combination (ny * (-c') + nz * b') * h1 + (ny * c - nz * b) * h2 + (b * c' - c * b') * hn
  have ky : ((b * c' - c * b') * nx + (c * a' - a * c') * ny + (a * b' - b * a') * nz) * (py - qy) = 0 := by
    linear_combination (nz * (-a') + nx * c') * h1 + (nz * a - nx * c) * h2 + (c * a' - a * c') * hn
  have kz : ((b * c' - c * b') * nx + (c * a' - a * c') * ny + (a * b' - b * a') * nz) * (pz - qz) = 0 := by
    linear_combination (nx * (-b') + ny * a') * h1 + (nx * b - ny * a) * h2 + (a * b' - b * a') * hn
  have e1 := (mul_eq_zero.1 kx).resolve_left h
  have e2 := (mul_eq_zero.1 ky).resolve_left h
  have e3 := (mul_eq_zero.1 kz).resolve_left h
  rw [sub_eq_zero] at e1 e2 e3
  rw [e1, e2, e3]

/-- The largest component of a unit vector. -/
theorem big {a b c eps : K} (h : a * a + b * b + c * c = 1) (ha : |a| ≤ |c|) (hb : |b| ≤ |c|) (he : eps ≤ 1 / 2) : eps ≤ |c| := by
  by_contra hc
  have hc' : |c| < 1 / 2 := lt_of_lt_of_le (not_le.1 hc) he
  have h1 : a * a ≤ |c| * |c| := by
    rw [← abs_mul_abs_self a]
    exact mul_self_le_mul_self (abs_nonneg _) ha
  have h2 : b * b ≤ |c| * |c| := by
    rw [← abs_mul_abs_self b]
    exact mul_self_le_mul_self (abs_nonneg _) hb
  have h3 : c * c = |c| * |c| := (abs_mul_abs_self c).symm
  have h4 : |c| * |c| < 1 / 4 := by
    have := mul_self_lt_mul_self (abs_nonneg c) hc'
    linarith
  linarith

theorem abs_unit_len {l a : K} (h : l * l = 1) : |a / l| = |a| := by
  rw [abs_div]
  have : |l| = 1 := by
    have h' : |l| * |l| = 1 := by rw [abs_mul_abs_self, h]
    have hn := abs_nonneg l
    nlinarith
  rw [this, div_one]

/-- The vectors of the plain definition pass the test. -/
theorem plain_det (env : Env K) (hz : Zero env) {n : Vec K} (hn : UnitLength n) {eps : K} (he : eps ≤ 1 / 2) :
    let c := cross (quakeEd env n plain).s.v (quakeEd env n plain).t.v
    dot c c = 1 ∧ eps ≤ |dot c n| := by
  obtain ⟨s, _, h | h | h⟩ := textureAxis_cases env.old n
  · have hb := big (eps := eps) hn h.2.2.1 h.2.2.2 he
    simp [quakeEd, h.1, axZ, firstAxis, turn, at_, put, plain, sane, hz.cos, hz.sin, cross, dot, hb]
  · have hb := big (eps := eps) (a := n.y) (b := n.z) (c := n.x) (by unfold UnitLength at hn; linarith) h.2.2.1 h.2.2.2 he
    simp [quakeEd, h.1, axX, firstAxis, turn, at_, put, plain, sane, hz.cos, hz.sin, cross, dot, hb]
  · have hb := big (eps := eps) (a := n.x) (b := n.z) (c := n.y) (by unfold UnitLength at hn; linarith) h.2.2.1 h.2.2.2 he
    simp [quakeEd, h.1, axY, firstAxis, turn, at_, put, plain, sane, hz.cos, hz.sin, cross, dot, hb]

theorem plain_valid (env : Env K) (hm : ∀ v, env.len v * env.len v = dot v v) (hz : Zero env) {n : Vec K} (hn : UnitLength n)
    {eps : K} (he : eps ≤ 1 / 2) : isValid env eps n (quakeEd env n plain) = true := by
  obtain ⟨h1, h2⟩ := plain_det env hz hn he
  have hl : env.len (cross (quakeEd env n plain).s.v (quakeEd env n plain).t.v) *
      env.len (cross (quakeEd env n plain).s.v (quakeEd env n plain).t.v) = 1 := by rw [hm, h1]
  have hl0 : env.len (cross (quakeEd env n plain).s.v (quakeEd env n plain).t.v) ≠ 0 := by
    intro h0
    rw [h0, zero_mul] at hl
    exact zero_ne_one hl
  unfold isValid
  simp only [dot_normalize env _ n hl0, abs_unit_len hl, not_lt.2 h2, if_false]

theorem isValid_iff {env : Env K} (hm : ∀ v, env.len v * env.len v = dot v v) {eps : K} (he : 0 < eps) (n : Vec K) (x : Tex K) :
    isValid env eps n x = true ↔ ¬ EdgeOn eps n x := by
  unfold isValid EdgeOn
  simp only
  set c := cross x.s.v x.t.v with hc
  by_cases hl : env.len c = 0
  · have h0 : dot c c = 0 := by rw [← hm, hl, zero_mul]
    have hcz : c.x = 0 ∧ c.y = 0 ∧ c.z = 0 := by
      simp only [dot] at h0
      refine ⟨?_, ?_, ?_⟩ <;> nlinarith [mul_self_nonneg c.x, mul_self_nonneg c.y, mul_self_nonneg c.z]
    have hz : dot (normalize env c) n = 0 := by
      unfold normalize
      rw [if_neg (not_not.2 hl)]
      simp only [dot, hcz.1, hcz.2.1, hcz.2.2, zero_mul, add_zero]
    simp only [hz, abs_zero, he, if_true, Bool.false_eq_true, h0, true_or, not_true]
  · have h0 : dot c c ≠ 0 := by
      rw [← hm]
      exact mul_ne_zero hl hl
    rw [dot_normalize env c n hl]
    have hp : 0 < |env.len c| := abs_pos.2 hl
    have key : |dot c n / env.len c| < eps ↔ dot c n * dot c n < eps * eps * dot c c := by
      rw [abs_div, div_lt_iff₀ hp, ← abs_mul_abs_self (dot c n), ← hm c, ← abs_mul_abs_self (env.len c)]
      constructor
      · intro h
        have := mul_self_lt_mul_self (abs_nonneg _) h
        linarith
      · intro h
        by_contra hh
        have := mul_self_le_mul_self (mul_nonneg he.le hp.le) (not_lt.1 hh)
        linarith
    by_cases hk : |dot c n / env.len c| < eps
    · simp only [hk, if_true, Bool.false_eq_true, key.1 hk, or_true, not_true]
    · have hk' := fun h => hk (key.2 h)
      simp only [hk, if_false, true_iff]
      rintro (h | h)
      · exact h0 h
      · exact hk' h

theorem plain_uvs (env : Env K) (hz : Zero env) (n p : Vec K) : (quakeEd env n plain).uvs p = flat env.old n p := by
  obtain ⟨s, _, h | h | h⟩ := textureAxis_cases env.old n
  · simp [quakeEd, h.1, h.2.1, axZ, firstAxis, turn, at_, put, plain, sane, hz.cos, hz.sin, Tex.uvs]
  · simp [quakeEd, h.1, h.2.1, axX, firstAxis, turn, at_, put, plain, sane, hz.cos, hz.sin, Tex.uvs]
  · simp [quakeEd, h.1, h.2.1, axY, firstAxis, turn, at_, put, plain, sane, hz.cos, hz.sin, Tex.uvs]

variable [FloorRing K]

theorem rint_spec {eps x : K} (he : eps ≤ 1 / 2) (z : Int) (h : |x - z| < eps) : rint x = z := by
  unfold rint
  have h' := abs_lt.1 (lt_of_lt_of_le h he)
  have : ⌊x + 1 / 2⌋ = z := by
    rw [Int.floor_eq_iff]
    constructor <;> linarith [h'.1, h'.2]
  rw [this]

theorem snap_rounded {eps : K} (he : eps ≤ 1 / 2) (x : K) : Rounded eps x (snap eps x) := by
  constructor
  · intro z hz
    have := rint_spec he z hz
    unfold snap
    rw [this, if_pos hz]
  · intro h
    unfold snap
    rw [if_neg]
    exact not_lt.2 (h ⌊x + 1 / 2⌋)

theorem snapTex_rounded {eps : K} (he : eps ≤ 1 / 2) (x : Tex K) :
    List.Forall₂ (Rounded eps) (numbers x) (numbers (snapTex eps x)) := by
  simp only [numbers, snapTex, snapRow]
  refine .cons (snap_rounded he _) (.cons (snap_rounded he _) (.cons (snap_rounded he _) (.cons (snap_rounded he _)
    (.cons (snap_rounded he _) (.cons (snap_rounded he _) (.cons (snap_rounded he _) (.cons (snap_rounded he _) .nil)))))))

omit [FloorRing K] in
theorem rounded_unique {eps a b c : K} (h1 : Rounded eps a b) (h2 : Rounded eps a c) : b = c := by
  by_cases h : ∃ z : Int, |a - z| < eps
  · obtain ⟨z, hz⟩ := h
    rw [h1.1 z hz, h2.1 z hz]
  · have h' : ∀ z : Int, eps ≤ |a - z| := fun z => not_lt.1 fun hz => h ⟨z, hz⟩
    rw [h1.2 h', h2.2 h']

omit [FloorRing K] in
theorem rounded_list {eps : K} {l m k : List K} (h1 : List.Forall₂ (Rounded eps) l m) (h2 : List.Forall₂ (Rounded eps) l k) :
    m = k := by
  induction h1 generalizing k with
  | nil => cases h2; rfl
  | cons h _ ih =>
    cases h2 with
    | cons h' t' => rw [rounded_unique h h', ih t']

omit [IsStrictOrderedRing K] [LinearOrder K] [FloorRing K] in
theorem numbers_inj {x y : Tex K} (h : numbers x = numbers y) : x = y := by
  obtain ⟨⟨⟨a, b, c⟩, d⟩, ⟨⟨a', b', c'⟩, d'⟩⟩ := x
  obtain ⟨⟨⟨e, f, g⟩, i⟩, ⟨⟨e', f', g'⟩, i'⟩⟩ := y
  simp only [numbers, List.cons.injEq, and_true] at h
  obtain ⟨rfl, rfl, rfl, rfl, rfl, rfl, rfl, rfl⟩ := h
  rfl

theorem snapTex_unique {eps : K} (he : eps ≤ 1 / 2) {x y : Tex K} (h : List.Forall₂ (Rounded eps) (numbers x) (numbers y)) :
    y = snapTex eps x := numbers_inj (rounded_list h (snapTex_rounded he x))

end Verif.TexValid
