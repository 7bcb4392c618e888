import Verif.Place.Spec
import Mathlib.Tactic.Ring
import Mathlib.Tactic.LinearCombination
import Mathlib.Tactic.Linarith
import Mathlib.Tactic.FieldSimp

/-!
How the plane of a face changes with its points.
-/

namespace Verif.Place

open Geom BrushBsp Place.Spec

variable {K : Type} [Field K] [LinearOrder K] [IsStrictOrderedRing K]

theorem dot_self_pos {v : Vec K} (h : v ≠ ⟨0, 0, 0⟩) : 0 < dot v v := by
  simp only [dot]
  have hx := mul_self_nonneg v.x; have hy := mul_self_nonneg v.y; have hz := mul_self_nonneg v.z
  rcases lt_or_eq_of_le (show 0 ≤ v.x * v.x + v.y * v.y + v.z * v.z by linarith) with h1 | h1
  · exact h1
  · exfalso
    apply h
    have ex : v.x = 0 := mul_self_eq_zero.1 (by linarith)
    have ey : v.y = 0 := mul_self_eq_zero.1 (by linarith)
    have ez : v.z = 0 := mul_self_eq_zero.1 (by linarith)
    cases v
    simp only at ex ey ez
    rw [ex, ey, ez]

omit [IsStrictOrderedRing K] in
/-- The distance to the plane, in terms of the points. -/
theorem proper_dist {env : Env K} (hn : Normalizes env) {f : Face K} (hf : Proper env f) :
    ∃ k, 0 < k ∧ ∀ q, f.plane.distTo q = k * dot (spread f) (sub q f.p1) := by
  obtain ⟨k, hk, e⟩ := hn.2 _ hf.1
  refine ⟨k, hk, ?_⟩
  intro q
  rw [hf.2, e]
  simp only [Plane.distTo, dot, sub]
  ring

/-- The points of a face are moved by a map that is affine: `h` is the volume it gives to a box. -/
theorem moved {env : Env K} (hn : Normalizes env) {f g : Face K} (hf : Proper env f) (T : Vec K → Vec K) (d : K) (hd : d ≠ 0)
    (hT : ∀ a b c q, dot (cross (sub (T a) (T b)) (sub (T c) (T b))) (sub (T q) (T b)) =
      d * dot (cross (sub a b) (sub c b)) (sub q b))
    (hg : ∃ g', g = { setPts env g' (T f.p0) (T f.p1) (T f.p2) with s := g.s, t := g.t }) :
    Proper env g ∧ ∃ k, 0 < k ∧ ∀ q, g.plane.distTo (T q) = k * d * f.plane.distTo q := by
  obtain ⟨g', eg⟩ := hg
  have e0 : g.p0 = T f.p0 := by rw [eg]; rfl
  have e1 : g.p1 = T f.p1 := by rw [eg]; rfl
  have e2 : g.p2 = T f.p2 := by rw [eg]; rfl
  have es : spread g = cross (sub (T f.p0) (T f.p1)) (sub (T f.p2) (T f.p1)) := by unfold spread; rw [e0, e1, e2]
  have hne : spread g ≠ ⟨0, 0, 0⟩ := by
    intro h
    have h1 := hT f.p0 f.p1 f.p2 (add (spread f) f.p1)
    rw [← es, h] at h1
    have h2 : dot (cross (sub f.p0 f.p1) (sub f.p2 f.p1)) (sub (add (spread f) f.p1) f.p1) = dot (spread f) (spread f) := by
      simp only [spread, dot, sub, add]; ring
    rw [h2] at h1
    have h3 := dot_self_pos hf.1
    have h4 : d * dot (spread f) (spread f) = 0 := by rw [← h1]; simp [dot]
    rcases mul_eq_zero.1 h4 with h5 | h5
    · exact hd h5
    · linarith
  have hp : Proper env g := by
    refine ⟨hne, ?_⟩
    rw [es, e1]
    conv_lhs => rw [eg]
    rfl
  refine ⟨hp, ?_⟩
  obtain ⟨k, hk, hq⟩ := proper_dist hn hf
  obtain ⟨k', hk', hq'⟩ := proper_dist hn hp
  refine ⟨k' / k, div_pos hk' hk, ?_⟩
  intro q
  rw [hq', hq, es, e1, hT]
  have : k ≠ 0 := ne_of_gt hk
  unfold spread
  field_simp

theorem scale_moved {env : Env K} (hn : Normalizes env) {f : Face K} (hf : Proper env f) {sc : Vec K}
    (hs : sc.x * sc.y * sc.z ≠ 0) :
    Proper env (scaleFace env sc f) ∧ ∃ k, 0 < k ∧
      ∀ q, (scaleFace env sc f).plane.distTo (stretch sc q) = k * (sc.x * sc.y * sc.z) * f.plane.distTo q := by
  apply moved hn hf (stretch sc) _ hs
  · intro a b c q
    simp only [stretch, sub, cross, dot]
    ring
  · refine ⟨f, ?_⟩
    have e : ∀ v : Vec K, (diag sc).app v = stretch sc v := by
      intro v; simp only [diag, Mat.app, dot, stretch, Vec.mk.injEq]; refine ⟨?_, ?_, ?_⟩ <;> ring
    unfold scaleFace
    simp only [e]

omit [LinearOrder K] [IsStrictOrderedRing K] in
theorem rotation_app (env : Env K) (a v : Vec K) : (rotation env a).app v =
    turnZ (env.cos a.y) (env.sin a.y) (turnY (env.cos a.x) (env.sin a.x) (turnX (env.cos a.z) (env.sin a.z) v)) := by
  simp only [rotation, Mat.app, Mat.mul, Mat.col0, Mat.col1, Mat.col2, rotX, rotY, rotZ, dot, turnX, turnY, turnZ, Vec.mk.injEq]
  refine ⟨?_, ?_, ?_⟩ <;> ring

theorem turnX_vol {c s : K} (h : c * c + s * s = 1) (u v w : Vec K) :
    dot (cross (turnX c s u) (turnX c s v)) (turnX c s w) = dot (cross u v) w := by
  simp only [turnX, cross, dot]
  linear_combination (u.x * (v.y * w.z - v.z * w.y) + u.y * (v.z * w.x - v.x * w.z) + u.z * (v.x * w.y - v.y * w.x)) * h

theorem turnY_vol {c s : K} (h : c * c + s * s = 1) (u v w : Vec K) :
    dot (cross (turnY c s u) (turnY c s v)) (turnY c s w) = dot (cross u v) w := by
  simp only [turnY, cross, dot]
  linear_combination (u.x * (v.y * w.z - v.z * w.y) + u.y * (v.z * w.x - v.x * w.z) + u.z * (v.x * w.y - v.y * w.x)) * h

theorem turnZ_vol {c s : K} (h : c * c + s * s = 1) (u v w : Vec K) :
    dot (cross (turnZ c s u) (turnZ c s v)) (turnZ c s w) = dot (cross u v) w := by
  simp only [turnZ, cross, dot]
  linear_combination (u.x * (v.y * w.z - v.z * w.y) + u.y * (v.z * w.x - v.x * w.z) + u.z * (v.x * w.y - v.y * w.x)) * h

theorem turnX_dot {c s : K} (h : c * c + s * s = 1) (u v : Vec K) : dot (turnX c s u) (turnX c s v) = dot u v := by
  simp only [turnX, dot]
  linear_combination (u.y * v.y + u.z * v.z) * h

theorem turnY_dot {c s : K} (h : c * c + s * s = 1) (u v : Vec K) : dot (turnY c s u) (turnY c s v) = dot u v := by
  simp only [turnY, dot]
  linear_combination (u.x * v.x + u.z * v.z) * h

theorem turnZ_dot {c s : K} (h : c * c + s * s = 1) (u v : Vec K) : dot (turnZ c s u) (turnZ c s v) = dot u v := by
  simp only [turnZ, dot]
  linear_combination (u.x * v.x + u.y * v.y) * h

theorem rotate_moved {env : Env K} (hn : Normalizes env) (hc : Circular env) {f : Face K} (hf : Proper env f) (a : Vec K) :
    Proper env (rotateFace env a f) ∧ ∃ k, 0 < k ∧
      ∀ q, (rotateFace env a f).plane.distTo ((rotation env a).app q) = k * 1 * f.plane.distTo q := by
  apply moved hn hf (rotation env a).app 1 one_ne_zero
  · intro u b c q
    have e : ∀ v w : Vec K, sub ((rotation env a).app v) ((rotation env a).app w) = (rotation env a).app (sub v w) := by
      intro v w
      simp only [Mat.app, sub, dot, Vec.mk.injEq]
      refine ⟨?_, ?_, ?_⟩ <;> ring
    rw [e, e, e]
    simp only [rotation_app]
    rw [turnZ_vol (hc _), turnY_vol (hc _), turnX_vol (hc _), one_mul]
  · exact ⟨f, rfl⟩

theorem translate_moved {env : Env K} (hn : Normalizes env) {f : Face K} (hf : Proper env f) (o : Vec K) :
    Proper env (translateFace env o f) ∧ ∃ k, 0 < k ∧
      ∀ q, (translateFace env o f).plane.distTo (add q o) = k * 1 * f.plane.distTo q := by
  apply moved hn hf (fun q => add q o) 1 one_ne_zero
  · intro a b c q
    simp only [add, sub, cross, dot]
    ring
  · exact ⟨f, rfl⟩

/-- All three. -/
theorem place_moved {env : Env K} (hn : Normalizes env) (hc : Circular env) (eps : K) (k : Keys K) {f : Face K}
    (hf : Proper env f) (hs : (chooseScale k.scaleCount k.scale).x * (chooseScale k.scaleCount k.scale).y *
      (chooseScale k.scaleCount k.scale).z ≠ 0) :
    Proper env (placeFace env eps k f) ∧ ∃ c, 0 < c ∧ ∀ q, (placeFace env eps k f).plane.distTo
      (placed env (chooseScale k.scaleCount k.scale) (chooseAngles eps k.angles k.angle) k.origin q) =
      c * ((chooseScale k.scaleCount k.scale).x * (chooseScale k.scaleCount k.scale).y *
        (chooseScale k.scaleCount k.scale).z) * f.plane.distTo q := by
  obtain ⟨h1, c1, p1, e1⟩ := scale_moved hn hf hs
  obtain ⟨h2, c2, p2, e2⟩ := rotate_moved hn hc h1 (chooseAngles eps k.angles k.angle)
  obtain ⟨h3, c3, p3, e3⟩ := translate_moved hn h2 k.origin
  refine ⟨h3, c3 * c2 * c1, mul_pos (mul_pos p3 p2) p1, ?_⟩
  intro q
  unfold placed placeFace
  rw [← rotation_app, e3, e2, e1]
  ring

omit [LinearOrder K] [IsStrictOrderedRing K] in
theorem scale_tex {env : Env K} {sc : Vec K} (hs : sc.x ≠ 0 ∧ sc.y ≠ 0 ∧ sc.z ≠ 0) (f : Face K) (q : Vec K) :
    texAt (scaleFace env sc f) (stretch sc q) = texAt f q := by
  obtain ⟨hx, hy, hz⟩ := hs
  simp only [texAt, scaleFace, setPts, diag, Mat.app, dot, stretch, Prod.mk.injEq]
  constructor <;> field_simp <;> ring

theorem rotate_tex {env : Env K} (hc : Circular env) (a : Vec K) (f : Face K) (q : Vec K) :
    texAt (rotateFace env a f) ((rotation env a).app q) = texAt f q := by
  have key : ∀ u v : Vec K, dot ((rotation env a).app u) ((rotation env a).app v) = dot u v := by
    intro u v
    rw [rotation_app, rotation_app, turnZ_dot (hc _), turnY_dot (hc _), turnX_dot (hc _)]
  simp only [texAt, rotateFace, setPts, key]

omit [LinearOrder K] [IsStrictOrderedRing K] in
theorem translate_tex {env : Env K} (o : Vec K) (f : Face K) (q : Vec K) :
    texAt (translateFace env o f) (add q o) = texAt f q := by
  simp only [texAt, translateFace, setPts, add, dot, Prod.mk.injEq]
  constructor <;> ring

end Verif.Place
