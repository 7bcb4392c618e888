import Verif.TexValid.Lemmas
import Verif.TexDef.Real

/-!
C227: every side of a brush that qbsp reads gets texture vectors with which different points of the side have different
texture coordinates.
-/

namespace Verif.TexValid

open Geom TexDef Spec
open TexDef.Spec (flat)

variable {K : Type} [Field K] [LinearOrder K] [IsStrictOrderedRing K] [FloorRing K]

/-- Whatever the map file says, the texture is not smeared on the side, and qbsp does not stop. -/
theorem side_faithful (env : Env K) (hm : ∀ v, env.len v * env.len v = dot v v) (hz : Zero env) {eps : K} (he : 0 < eps)
    (he' : eps ≤ 1 / 2) {n : Vec K} (hn : UnitLength n) (f : Flags) (x : Tex K) :
    ∃ y, finish env eps f n x = .ok y ∧ Faithful n y := by
  unfold finish
  by_cases hf : (f.nodraw || f.hintskip || f.hint) = true
  · rw [if_pos hf]
    refine ⟨_, rfl, faithful_of_det (isValid_det (env := { env with old := true }) (eps := eps) he ?_)⟩
    exact plain_valid { env with old := true } hm ⟨hz.cos, hz.sin⟩ hn he'
  · rw [if_neg hf]
    unfold validate
    by_cases hv : isValid env eps n (snapTex eps x) = true
    · rw [if_pos hv]
      exact ⟨_, rfl, faithful_of_det (isValid_det he hv)⟩
    · rw [if_neg hv, if_pos (plain_valid env hm hz hn he')]
      exact ⟨_, rfl, faithful_of_det (isValid_det he (plain_valid env hm hz hn he'))⟩

/-- The vectors of a drawn side are those of the map file, rounded, unless the texture would be seen edge-on. -/
theorem drawn_kept (env : Env K) (hm : ∀ v, env.len v * env.len v = dot v v) {eps : K} (he : 0 < eps) (he' : eps ≤ 1 / 2)
    {n : Vec K} {f : Flags} (hf : f = ⟨false, false, false⟩) {x y : Tex K}
    (hy : List.Forall₂ (Rounded eps) (numbers x) (numbers y)) (hv : ¬ EdgeOn eps n y) : finish env eps f n x = .ok y := by
  subst hf
  rw [snapTex_unique he' hy] at hv ⊢
  unfold finish validate
  rw [if_neg (by simp), if_pos ((isValid_iff hm he n _).2 hv)]

/-- If it would, the texture is projected along the nearest axis. -/
theorem edge_on_reset (env : Env K) (hm : ∀ v, env.len v * env.len v = dot v v) (hz : Zero env) {eps : K} (he : 0 < eps)
    (he' : eps ≤ 1 / 2) {n : Vec K} (hn : UnitLength n) {f : Flags} (hf : f = ⟨false, false, false⟩) {x y : Tex K}
    (hy : List.Forall₂ (Rounded eps) (numbers x) (numbers y)) (hv : EdgeOn eps n y) :
    ∃ r, finish env eps f n x = .ok r ∧ ∀ p, r.uvs p = flat env.old n p := by
  subst hf
  rw [snapTex_unique he' hy] at hv
  unfold finish validate
  rw [if_neg (by simp), if_neg (fun h => (isValid_iff hm he n _).1 h hv), if_pos (plain_valid env hm hz hn he')]
  exact ⟨_, rfl, plain_uvs env hz n⟩

/-- On a side that is not drawn it is too, whatever the map file says; the option `-oldaxis` does not matter. -/
theorem hidden_reset (env : Env K) (hz : Zero env) (eps : K) (n : Vec K) {f : Flags} (hf : f ≠ ⟨false, false, false⟩) (x : Tex K) :
    ∃ r, finish env eps f n x = .ok r ∧ ∀ p, r.uvs p = flat true n p := by
  have h : (f.nodraw || f.hintskip || f.hint) = true := by
    obtain ⟨a, b, c⟩ := f
    cases a <;> cases b <;> cases c <;> simp_all
  unfold finish
  rw [if_pos h]
  exact ⟨_, rfl, plain_uvs { env with old := true } ⟨hz.cos, hz.sin⟩ n⟩

/-! The hypotheses are met. -/

theorem zero_real (old : Bool) : Zero (realEnv old) := ⟨by simp [realEnv], by simp [realEnv]⟩

/-- A floor whose texture axes are up and to the side. -/
noncomputable def exTex : Tex ℝ := ⟨⟨⟨1, 0, 0⟩, 3⟩, ⟨⟨0, 0, 1⟩, 4⟩⟩

example : EdgeOn (1 / 10000) (⟨0, 0, 1⟩ : Vec ℝ) exTex := by
  right
  norm_num [exTex, BrushBsp.cross, dot]

example : List.Forall₂ (Rounded (1 / 10000)) (numbers exTex) (numbers exTex) := by
  have h := snapTex_rounded (eps := (1 / 10000 : ℝ)) (by norm_num) exTex
  have e : snapTex (1 / 10000 : ℝ) exTex = exTex := by
    have k (z : Int) : snap (1 / 10000 : ℝ) (z : ℝ) = z := (snap_rounded (by norm_num) _).1 z (by norm_num)
    have k0 := k 0; have k1 := k 1; have k3 := k 3; have k4 := k 4
    push_cast at k0 k1 k3 k4
    simp only [snapTex, snapRow, exTex, k0, k1, k3, k4]
  rwa [e] at h

example : ∃ y, finish (realEnv false) (1 / 10000) ⟨false, false, false⟩ ⟨0, 0, 1⟩ exTex = .ok y ∧ Faithful ⟨0, 0, 1⟩ y :=
  side_faithful _ (maths_real false).len_sq (zero_real false) (by norm_num) (by norm_num) (by norm_num [UnitLength]) _ _

example : ¬ EdgeOn (1 / 10000) (⟨0, 1, 0⟩ : Vec ℝ) exTex := by
  rintro (h | h) <;> norm_num [exTex, BrushBsp.cross, dot] at h

end Verif.TexValid
