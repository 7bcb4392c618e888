import Verif.BspUtil.ScaleSpec
import Verif.Tree.PlaneProps
import Verif.Decompile.WriteProps
import Mathlib.Tactic.Positivity
import Mathlib.Tactic.FieldSimp
import Mathlib.Tactic.SplitIfs

/-! Planes and numbers after `bsputil --scale`. -/

namespace Verif.BspUtil.Scale

open Geom Tree Decompile Spec

set_option linter.unusedSectionVars false

variable {K : Type} [Field K] [LinearOrder K] [IsStrictOrderedRing K]

theorem smul_eq (s p : Vec K) : smul s p = image s p := rfl

/-- The sign by which reversing the points changes a plane. -/
def sgn (s : Vec K) : K := if flips s ≠ 0 then -1 else 1

theorem sgn_det {s : Vec K} (h : Factors s) (h2 : ¬ HalfTurn s) : 0 < sgn s * (s.x * s.y * s.z) := by
  obtain ⟨hx, hy, hz⟩ := h
  unfold sgn flips
  unfold HalfTurn at h2
  rcases lt_or_gt_of_ne hx with a | a <;> rcases lt_or_gt_of_ne hy with b | b <;> rcases lt_or_gt_of_ne hz with c | c <;>
    simp only [a, b, c, not_lt.2 a.le, not_lt.2 b.le, not_lt.2 c.le, a.le, b.le, c.le, not_le.2 a, not_le.2 b, not_le.2 c, if_true, if_false, true_and,
      and_true, or_true, true_or, not_true_eq_false, and_false, false_and] at h2 ⊢ <;> norm_num
  · have := mul_pos_of_neg_of_neg a b; exact mul_neg_of_pos_of_neg this c
  · exact mul_neg_of_neg_of_pos (mul_neg_of_neg_of_pos a b) c
  · exact mul_neg_of_neg_of_pos (mul_neg_of_pos_of_neg a b) c
  · exact mul_neg_of_pos_of_neg (mul_pos a b) c
  · exact mul_pos (mul_pos a b) c

theorem sgn_det_half {s : Vec K} (h : Factors s) (h2 : HalfTurn s) : sgn s * (s.x * s.y * s.z) < 0 := by
  obtain ⟨hx, hy, hz⟩ := h
  rcases h2 with ⟨a, b, c⟩ | ⟨a, b, c⟩ | ⟨a, b, c⟩
  · have c' := lt_of_le_of_ne c (Ne.symm hz)
    have := mul_pos (mul_pos_of_neg_of_neg a b) c'
    simp only [sgn, flips, a, b, not_lt.2 c, if_true, if_false]
    norm_num; linarith
  · have b' := lt_of_le_of_ne b (Ne.symm hy)
    have := mul_pos_of_neg_of_neg (mul_neg_of_neg_of_pos a b') c
    simp only [sgn, flips, a, c, not_lt.2 b, if_true, if_false]
    norm_num; linarith
  · have a' := lt_of_le_of_ne a (Ne.symm hx)
    have := mul_pos_of_neg_of_neg (mul_neg_of_pos_of_neg a' b) c
    simp only [sgn, flips, b, c, not_lt.2 a, if_true, if_false]
    norm_num; linarith

theorem factors_det {s : Vec K} (h : Factors s) : s.x * s.y * s.z ≠ 0 := mul_ne_zero (mul_ne_zero h.1 h.2.1) h.2.2

/-- The vector that is made to have length one. -/
theorem scaled_cross {len : Vec K → K} {s : Vec K} {p : DPlane K} (hu : dot p.plane.normal p.plane.normal = 1) :
    ∃ (C : K) (b : Vec K), 0 < C ∧ p.plane.distTo b = 0 ∧
      (scaledPlane len s p).plane =
        (let c := vmul (sgn s * C) ⟨s.y * s.z * p.plane.normal.x, s.x * s.z * p.plane.normal.y, s.x * s.y * p.plane.normal.z⟩
         ⟨vmul (1 / len c) c, dot (image s b) (vmul (1 / len c) c)⟩) := by
  obtain ⟨h0, C, hC, hc⟩ := points_give_plane (pl := p.plane) hu
  refine ⟨C, (threePoints p.plane).2.1, hC, h0, ?_⟩
  simp only [BrushBsp.cross, vsub, vmul, Vec.mk.injEq] at hc
  obtain ⟨hc1, hc2, hc3⟩ := hc
  unfold scaledPlane sgn
  by_cases hf : flips s ≠ 0
  · simp only [if_pos hf]
    unfold planeOf
    have : BrushBsp.cross (vsub (smul s (threePoints p.plane).2.2) (smul s (threePoints p.plane).2.1))
        (vsub (smul s (threePoints p.plane).1) (smul s (threePoints p.plane).2.1)) =
        vmul (-1 * C) ⟨s.y * s.z * p.plane.normal.x, s.x * s.z * p.plane.normal.y, s.x * s.y * p.plane.normal.z⟩ := by
      simp only [BrushBsp.cross, vsub, vmul, smul, Vec.mk.injEq]
      refine ⟨?_, ?_, ?_⟩
      · linear_combination (-(s.y * s.z)) * hc1
      · linear_combination (-(s.x * s.z)) * hc2
      · linear_combination (-(s.x * s.y)) * hc3
    rw [this]
    rfl
  · simp only [if_neg hf]
    unfold planeOf
    have : BrushBsp.cross (vsub (smul s (threePoints p.plane).1) (smul s (threePoints p.plane).2.1))
        (vsub (smul s (threePoints p.plane).2.2) (smul s (threePoints p.plane).2.1)) =
        vmul (1 * C) ⟨s.y * s.z * p.plane.normal.x, s.x * s.z * p.plane.normal.y, s.x * s.y * p.plane.normal.z⟩ := by
      simp only [BrushBsp.cross, vsub, vmul, smul, Vec.mk.injEq]
      refine ⟨?_, ?_, ?_⟩
      · linear_combination (s.y * s.z) * hc1
      · linear_combination (s.x * s.z) * hc2
      · linear_combination (s.x * s.y) * hc3
    rw [this]
    rfl

theorem sgn_ne (s : Vec K) : sgn s ≠ 0 := by unfold sgn; split_ifs <;> norm_num

theorem cof_ne {s n : Vec K} (h : Factors s) (hu : dot n n = 1) {c : K} (hc : c ≠ 0) :
    dot (vmul c ⟨s.y * s.z * n.x, s.x * s.z * n.y, s.x * s.y * n.z⟩) (vmul c ⟨s.y * s.z * n.x, s.x * s.z * n.y, s.x * s.y * n.z⟩) ≠ 0 := by
  intro h0
  obtain ⟨hx, hy, hz⟩ := h
  simp only [dot, vmul] at h0 hu
  have e1 : c * (s.y * s.z * n.x) = 0 := by
    nlinarith [mul_self_nonneg (c * (s.y * s.z * n.x)), mul_self_nonneg (c * (s.x * s.z * n.y)), mul_self_nonneg (c * (s.x * s.y * n.z))]
  have e2 : c * (s.x * s.z * n.y) = 0 := by
    nlinarith [mul_self_nonneg (c * (s.y * s.z * n.x)), mul_self_nonneg (c * (s.x * s.z * n.y)), mul_self_nonneg (c * (s.x * s.y * n.z))]
  have e3 : c * (s.x * s.y * n.z) = 0 := by
    nlinarith [mul_self_nonneg (c * (s.y * s.z * n.x)), mul_self_nonneg (c * (s.x * s.z * n.y)), mul_self_nonneg (c * (s.x * s.y * n.z))]
  simp only [mul_eq_zero, hc, hx, hy, hz, false_or] at e1 e2 e3
  rw [e1, e2, e3] at hu
  norm_num at hu

/-- The new plane: its normal has length one, and the distance of an image is a multiple of the distance. -/
theorem scaled_plane {len : Vec K → K} (hl : LenOk len) {s : Vec K} (hs : Factors s) {p : DPlane K}
    (hu : dot p.plane.normal p.plane.normal = 1) :
    dot (scaledPlane len s p).plane.normal (scaledPlane len s p).plane.normal = 1 ∧
      (∃ c : K, 0 < c ∧ ∀ x, (scaledPlane len s p).plane.distTo (image s x) = c * (sgn s * (s.x * s.y * s.z)) * p.plane.distTo x) ∧
      (∃ k : K, (scaledPlane len s p).plane.normal =
        vmul k ⟨s.y * s.z * p.plane.normal.x, s.x * s.z * p.plane.normal.y, s.x * s.y * p.plane.normal.z⟩) := by
  obtain ⟨C, b, hC, hb, e⟩ := scaled_cross (len := len) (s := s) hu
  rw [e]
  have hne := cof_ne hs hu (mul_ne_zero (sgn_ne s) hC.ne')
  set c := vmul (sgn s * C) ⟨s.y * s.z * p.plane.normal.x, s.x * s.z * p.plane.normal.y, s.x * s.y * p.plane.normal.z⟩ with hcdef
  obtain ⟨l0, l1⟩ := hl c
  have lne : len c ≠ 0 := by
    intro h
    rw [h] at l1
    exact hne (by rw [← l1]; ring)
  have lpos : 0 < len c := lt_of_le_of_ne l0 (Ne.symm lne)
  refine ⟨?_, ⟨C / len c, div_pos hC lpos, ?_⟩, ⟨1 / len c * (sgn s * C), ?_⟩⟩
  · have : dot (vmul (1 / len c) c) (vmul (1 / len c) c) = dot c c / (len c * len c) := by
      simp only [dot, vmul]; field_simp
    simp only
    rw [this, l1, div_self hne]
  · intro x
    simp only [Plane.distTo] at hb ⊢
    have hxb : dot x p.plane.normal - p.plane.dist = dot x p.plane.normal - dot b p.plane.normal := by linear_combination hb
    rw [hxb, hcdef]
    simp only [dot, vmul, image]
    field_simp
  · simp only [hcdef, vmul, Vec.mk.injEq]
    refine ⟨?_, ?_, ?_⟩ <;> ring

theorem scaled_type (len : Vec K → K) (s : Vec K) (p : DPlane K) : (scaledPlane len s p).type = p.type := rfl

/-- The image of a plane along an axis is along the same axis. -/
theorem scaled_ok {len : Vec K → K} (hl : LenOk len) {s : Vec K} (hs : Factors s) {p : DPlane K} (hp : PlaneOk p) :
    PlaneOk (scaledPlane len s p) := by
  obtain ⟨hu, -, k, hk⟩ := scaled_plane hl hs hp.unit
  have hsq : ∀ a : K, a * a = 1 → a = 1 ∨ a = -1 := fun a h => mul_self_eq_one_iff.1 h
  refine ⟨hu, ?_, ?_, ?_⟩ <;> intro ht <;> rw [scaled_type] at ht
  · rw [hk] at hu ⊢
    rcases hp.x ht with e | e <;> rw [e] at hu ⊢ <;> simp only [vmul, dot, mul_zero, add_zero, Vec.mk.injEq, and_true] at hu ⊢ <;> exact hsq _ hu
  · rw [hk] at hu ⊢
    rcases hp.y ht with e | e <;> rw [e] at hu ⊢ <;>
      simp only [vmul, dot, mul_zero, add_zero, zero_add, Vec.mk.injEq, and_true, true_and] at hu ⊢ <;> exact hsq _ hu
  · rw [hk] at hu ⊢
    rcases hp.z ht with e | e <;> rw [e] at hu ⊢ <;>
      simp only [vmul, dot, mul_zero, add_zero, zero_add, Vec.mk.injEq, and_true, true_and] at hu ⊢ <;> exact hsq _ hu

/-! ### The list -/

theorem ok_neg {p : DPlane K} (h : PlaneOk p) : PlaneOk (neg p) := by
  refine ⟨?_, ?_, ?_, ?_⟩
  · rw [← h.unit]; simp [neg, negPlane, negVec, dot]
  · intro ht
    rcases h.x ht with e | e <;> simp [neg, negPlane, negVec, e]
  · intro ht
    rcases h.y ht with e | e <;> simp [neg, negPlane, negVec, e]
  · intro ht
    rcases h.z ht with e | e <;> simp [neg, negPlane, negVec, e]

theorem neg_neg' (p : DPlane K) : neg (neg p) = p := by simp [neg, negPlane, negVec]

theorem faces_of {p : DPlane K} (h : PlaneOk p) (h0 : ¬ comp p.plane.normal p.type.axis < 0) : Faces p := by
  refine ⟨?_, ?_, ?_⟩ <;> intro ht <;> rw [ht] at h0
  · rcases h.x ht with e | e
    · exact e
    · exfalso; rw [e] at h0; norm_num [PType.axis, comp] at h0
  · rcases h.y ht with e | e
    · exact e
    · exfalso; rw [e] at h0; norm_num [PType.axis, comp] at h0
  · rcases h.z ht with e | e
    · exact e
    · exfalso; rw [e] at h0
      simp only [PType.axis, comp, show (2 : Fin 3) ≠ 0 by decide, show (2 : Fin 3) ≠ 1 by decide, if_false] at h0
      norm_num at h0

/-- Planes are in pairs; the first of a pair faces its axis. -/
def Pairs (l : List (DPlane K)) : Prop :=
  l.length % 2 = 0 ∧ ∀ k a b, l[2 * k]? = some a → l[2 * k + 1]? = some b → b = neg a ∧ Faces a

theorem pairs_append {l : List (DPlane K)} (h : Pairs l) {a : DPlane K} (ha : Faces a) : Pairs (l ++ [a, neg a]) := by
  obtain ⟨h1, h2⟩ := h
  refine ⟨by simp only [List.length_append, List.length_cons, List.length_nil]; omega, ?_⟩
  intro k x y hx hy
  by_cases hk : 2 * k + 1 < l.length
  · rw [List.getElem?_append_left (by omega)] at hx hy
    exact h2 k x y hx hy
  · have hk2 : 2 * k = l.length := by
      have := (List.getElem?_eq_some_iff.1 hy).1
      simp only [List.length_append, List.length_cons, List.length_nil] at this
      omega
    rw [hk2, List.getElem?_append_right (le_refl _)] at hx
    rw [hk2, List.getElem?_append_right (by omega)] at hy
    simp at hx hy
    exact ⟨by rw [← hy, ← hx], by rw [← hx]; exact ha⟩

theorem addPlane_ok {l : List (DPlane K)} (h : Pairs l) {p : DPlane K} (hp : PlaneOk p) :
    Pairs (addPlane l p).2 ∧ (addPlane l p).2[(addPlane l p).1]? = some p ∧ (∃ t, (addPlane l p).2 = l ++ t) := by
  unfold addPlane
  by_cases hc : comp p.plane.normal p.type.axis < 0
  · simp only [if_pos hc]
    refine ⟨?_, by simp, ⟨_, rfl⟩⟩
    have hf : Faces (neg p) := by
      refine faces_of (ok_neg hp) ?_
      have : comp (neg p).plane.normal (neg p).type.axis = -comp p.plane.normal p.type.axis := comp_neg _ _
      rw [this]; linarith
    have := pairs_append h hf
    rwa [neg_neg'] at this
  · simp only [if_neg hc]
    exact ⟨pairs_append h (faces_of hp hc), by simp, ⟨_, rfl⟩⟩

theorem near_self {epsN epsD : K} (h0 : 0 ≤ epsN) (h1 : 0 ≤ epsD) (p : Plane K) : Tree.Spec.Near epsN epsD p p := by
  simp [Tree.Spec.Near, h0, h1]

theorem addOrFind_ok' {epsN epsD : K} (h0 : 0 ≤ epsN) (h1 : 0 ≤ epsD) (pick : List Nat → Nat) {l : List (DPlane K)} (h : Pairs l) {p : DPlane K}
    (hp : PlaneOk p) :
    Pairs (addOrFind epsN epsD pick l p).2 ∧
      (∃ q, (addOrFind epsN epsD pick l p).2[(addOrFind epsN epsD pick l p).1]? = some q ∧ Tree.Spec.Near epsN epsD p.plane q.plane) ∧
      ∃ t, (addOrFind epsN epsD pick l p).2 = l ++ t := by
  unfold addOrFind
  cases hf : findPlane epsN epsD pick l p with
  | none =>
    obtain ⟨a, b, c⟩ := addPlane_ok h hp
    exact ⟨a, ⟨p, b, near_self h0 h1 _⟩, c⟩
  | some i =>
    refine ⟨h, ?_, ⟨[], by simp⟩⟩
    unfold findPlane at hf
    have hm := List.mem_of_getElem? hf
    simp only [List.mem_map, List.mem_filter, decide_eq_true_eq] at hm
    obtain ⟨e, ⟨he, hb⟩, rfl⟩ := hm
    have := List.mem_zipIdx_iff_getElem?.1 he
    exact ⟨e.1, this, near_of_inBox hb⟩

theorem addAll_ok' {epsN epsD : K} (h0 : 0 ≤ epsN) (h1 : 0 ≤ epsD) (pick : List Nat → Nat) : ∀ (ps : List (DPlane K)) {l : List (DPlane K)},
    Pairs l → (∀ p ∈ ps, PlaneOk p) →
    Pairs (addAll epsN epsD pick l ps).2 ∧ (addAll epsN epsD pick l ps).1.length = ps.length ∧ (∃ t, (addAll epsN epsD pick l ps).2 = l ++ t) ∧
      ∀ (i : Nat) (p : DPlane K), ps[i]? = some p → ∃ (j : Nat) (q : DPlane K), (addAll epsN epsD pick l ps).1[i]? = some j ∧
        (addAll epsN epsD pick l ps).2[j]? = some q ∧ Tree.Spec.Near epsN epsD p.plane q.plane
  | [], l, h, _ => ⟨h, rfl, ⟨[], by simp [addAll]⟩, by intro i p hi; simp at hi⟩
  | p :: ps, l, h, hp => by
    obtain ⟨a, ⟨q, hq, hn⟩, ⟨t, ht⟩⟩ := addOrFind_ok' h0 h1 pick h (hp p (by simp))
    obtain ⟨b, hlen, ⟨u, hu⟩, hrest⟩ := addAll_ok' h0 h1 pick ps a (fun x hx => hp x (by simp [hx]))
    simp only [addAll]
    refine ⟨b, by simp [hlen], ⟨t ++ u, by rw [hu, ht, List.append_assoc]⟩, ?_⟩
    intro i p' hi
    cases i with
    | zero =>
      simp only [List.getElem?_cons_zero, Option.some.injEq] at hi
      subst hi
      refine ⟨(addOrFind epsN epsD pick l p).1, q, rfl, ?_, hn⟩
      rw [hu, List.getElem?_append_left (List.getElem?_eq_some_iff.1 hq).1]
      exact hq
    | succ i =>
      simp only [List.getElem?_cons_succ] at hi ⊢
      exact hrest i p' hi

theorem pairs_nil : Pairs ([] : List (DPlane K)) := ⟨rfl, by intro k a b h; simp at h⟩

/-- The distances from planes that are nearly the same. -/
theorem near_dist {epsN epsD : K} {p q : Plane K} (h : Tree.Spec.Near epsN epsD p q) (x : Vec K) :
    |p.distTo x - q.distTo x| ≤ tol epsN epsD x := by
  obtain ⟨h1, h2, h3, h4⟩ := h
  have e : p.distTo x - q.distTo x =
      x.x * (p.normal.x - q.normal.x) + x.y * (p.normal.y - q.normal.y) + x.z * (p.normal.z - q.normal.z) - (p.dist - q.dist) := by
    simp only [Plane.distTo, dot]; ring
  have b : ∀ u v : K, |v| ≤ epsN → |u * v| ≤ epsN * |u| := by
    intro u v hv
    rw [abs_mul, mul_comm]
    exact mul_le_mul_of_nonneg_right hv (abs_nonneg u)
  rw [e]
  unfold tol
  have t1 := b x.x _ h1
  have t2 := b x.y _ h2
  have t3 := b x.z _ h3
  rw [abs_le] at *
  constructor <;> linarith [t1.1, t1.2, t2.1, t2.2, t3.1, t3.2, h4.1, h4.2]

end Verif.BspUtil.Scale
