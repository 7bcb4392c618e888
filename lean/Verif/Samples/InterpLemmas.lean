import Verif.Samples.Spec

/-!
Lemmas on triangles: edge planes and barycentric coordinates.
-/

namespace Verif.Samples

open Verif.Geom Verif.Phong

theorem L_pos_of_ne {v : Vec ℝ} (h : v ≠ ⟨0, 0, 0⟩) : 0 < L v := by
  have h0 := len_nonneg v
  rcases h0.lt_or_eq with h1 | h1
  · exact h1
  · exfalso
    have h2 := len_sq v
    rw [← h1, mul_zero] at h2
    unfold dot at h2
    apply h
    refine vec_ext ?_ ?_ ?_ <;>
      exact mul_self_eq_zero.1 (by nlinarith [mul_self_nonneg v.x, mul_self_nonneg v.y, mul_self_nonneg v.z])

theorem edgePlane_above {v0 v1 n : Vec ℝ} {pl : Plane ℝ} (h : edgePlane L v0 v1 n = some pl) (p : Vec ℝ) :
    pointEps ≤ L (sub v1 v0) ∧ above pl p = dot (cross (sub v1 v0) n) (sub p v0) / L (sub v1 v0) := by
  unfold edgePlane at h
  simp only at h
  split at h
  · cases h
  · next hl =>
    have hl := not_lt.1 hl
    cases h
    have hp : 0 < L (sub v1 v0) := lt_of_lt_of_le (by norm_num [pointEps]) hl
    refine ⟨hl, ?_⟩
    unfold above
    simp only
    rw [eq_div_iff hp.ne']
    generalize L (sub v1 v0) = l at hp
    unfold dot cross smul sub
    simp only
    field_simp
    ring

theorem edgePlane_isSome {v0 v1 n : Vec ℝ} (h : pointEps ≤ L (sub v1 v0)) :
    ∃ pl, edgePlane L v0 v1 n = some pl := by
  unfold edgePlane
  simp only
  rw [if_neg (not_lt.2 h)]
  exact ⟨_, rfl⟩

/-- The planes of a triangle that counts. -/
theorem tri_planes {a b c : Vec ℝ} (h : (edgePlanes L [a, b, c]).length = 3) :
    areaEps ≤ 1 / 2 * L (areaVec a b c) ∧ ∃ p1 p2 p3, edgePlanes L [a, b, c] = [p1, p2, p3] ∧
      edgePlane L a b (smul (1 / L (areaVec a b c)) (areaVec a b c)) = some p1 ∧
      edgePlane L b c (smul (1 / L (areaVec a b c)) (areaVec a b c)) = some p2 ∧
      edgePlane L c a (smul (1 / L (areaVec a b c)) (areaVec a b c)) = some p3 := by
  unfold edgePlanes at h ⊢
  rw [if_neg (by simp)] at h ⊢
  simp only at h ⊢
  have hn : faceNormal L [a, b, c] = if 1 / 2 * L (areaVec a b c) < areaEps then ⟨0, 0, 0⟩
      else smul (1 / L (areaVec a b c)) (areaVec a b c) := by
    simp [faceNormal, largestTriangle, triangleArea, areaVec]
  rw [hn] at h ⊢
  by_cases hlt : 1 / 2 * L (areaVec a b c) < areaEps
  · rw [if_pos hlt, if_pos rfl] at h
    simp at h
  · rw [if_neg hlt] at h ⊢
    refine ⟨not_lt.1 hlt, ?_⟩
    by_cases hz : smul (1 / L (areaVec a b c)) (areaVec a b c) = ⟨0, 0, 0⟩
    · rw [if_pos hz] at h
      simp at h
    · rw [if_neg hz] at h ⊢
      have he : edges [a, b, c] = [(a, b), (b, c), (c, a)] := rfl
      rw [he] at h ⊢
      generalize smul (1 / L (areaVec a b c)) (areaVec a b c) = N at h ⊢
      cases h1 : edgePlane L a b N <;> cases h2 : edgePlane L b c N <;> cases h3 : edgePlane L c a N <;>
        simp [h1, h2, h3] at h ⊢

/-- A triangle that is large enough has three planes. -/
theorem tri_planes_of {a b c : Vec ℝ} (hA : areaEps ≤ 1 / 2 * L (areaVec a b c)) (h1 : pointEps ≤ L (sub b a))
    (h2 : pointEps ≤ L (sub c b)) (h3 : pointEps ≤ L (sub a c)) : (edgePlanes L [a, b, c]).length = 3 := by
  have hD : 0 < L (areaVec a b c) := by
    have : (0 : ℝ) < areaEps := by norm_num [areaEps]
    linarith
  unfold edgePlanes
  rw [if_neg (by simp)]
  simp only
  have hn : faceNormal L [a, b, c] = smul (1 / L (areaVec a b c)) (areaVec a b c) := by
    have : ¬(1 / 2 * L (areaVec a b c) < areaEps) := not_lt.2 hA
    unfold areaVec at this ⊢
    unfold faceNormal
    simp only [largestTriangle, triangleArea, if_true]
    rw [if_neg this]
  rw [hn, if_neg]
  · obtain ⟨q1, e1⟩ := edgePlane_isSome (n := smul (1 / L (areaVec a b c)) (areaVec a b c)) h1
    obtain ⟨q2, e2⟩ := edgePlane_isSome (n := smul (1 / L (areaVec a b c)) (areaVec a b c)) h2
    obtain ⟨q3, e3⟩ := edgePlane_isSome (n := smul (1 / L (areaVec a b c)) (areaVec a b c)) h3
    have he : edges [a, b, c] = [(a, b), (b, c), (c, a)] := rfl
    rw [he]
    simp only [List.filterMap_cons, e1, e2, e3, List.filterMap_nil, List.length_cons, List.length_nil]
  · intro h
    have hs := len_sq (areaVec a b c)
    have : dot (smul (1 / L (areaVec a b c)) (areaVec a b c)) (areaVec a b c) = 0 := by rw [h]; simp [dot]
    rw [dot_smul, ← hs] at this
    have e : 1 / L (areaVec a b c) * (realOps.len (areaVec a b c) * realOps.len (areaVec a b c))
        = L (areaVec a b c) := by
      have : realOps.len (areaVec a b c) = L (areaVec a b c) := rfl
      rw [this]
      field_simp
    rw [e] at this
    exact hD.ne' this

theorem denom_eq (a b c : Vec ℝ) :
    dot (sub b a) (sub b a) * dot (sub c a) (sub c a) - dot (sub b a) (sub c a) * dot (sub b a) (sub c a)
      = L (areaVec a b c) * L (areaVec a b c) := by
  rw [len_sq]
  unfold areaVec dot cross sub
  ring

/-- The barycentric coordinates of a point, in terms of the edges. -/
theorem bary_turn {p a b c : Vec ℝ} {w : ℝ × ℝ × ℝ} (h : baryFrom p a b c = some w) :
    w.1 + w.2.1 + w.2.2 = 1 ∧
    w.1 * (L (areaVec a b c) * L (areaVec a b c)) = dot (cross (sub c b) (areaVec a b c)) (sub p b) ∧
    w.2.1 * (L (areaVec a b c) * L (areaVec a b c)) = dot (cross (sub a c) (areaVec a b c)) (sub p c) ∧
    w.2.2 * (L (areaVec a b c) * L (areaVec a b c)) = dot (cross (sub b a) (areaVec a b c)) (sub p a) := by
  unfold baryFrom at h
  simp only at h
  rw [denom_eq] at h
  split at h
  · cases h
  · next hd =>
    cases h
    generalize hDD : L (areaVec a b c) * L (areaVec a b c) = DD at hd ⊢
    have hDD' : DD = dot (areaVec a b c) (areaVec a b c) := by rw [← hDD, len_sq]
    refine ⟨by simp only; ring, ?_, ?_, ?_⟩
    · simp only
      field_simp
      rw [hDD']
      unfold areaVec dot cross sub
      ring
    · simp only
      field_simp
      unfold areaVec dot cross sub
      ring
    · simp only
      field_simp
      unfold areaVec dot cross sub
      ring

/-- The point that has the coordinates is the foot of the perpendicular on the triangle. -/
theorem bary_foot {p a b c : Vec ℝ} {w : ℝ × ℝ × ℝ} (h : baryFrom p a b c = some w) :
    dot (sub p (baryTo w a b c)) (sub b a) = 0 ∧ dot (sub p (baryTo w a b c)) (sub c a) = 0 := by
  unfold baryFrom at h
  simp only at h
  split at h
  · cases h
  · next hd =>
    cases h
    have e : ∀ q : Vec ℝ, ∀ s t : ℝ, dot (sub p (baryTo (1 - s - t, s, t) a b c)) q
        = dot (sub p a) q - s * dot (sub b a) q - t * dot (sub c a) q := by
      intro q s t
      unfold baryTo dot add smul sub
      ring
    generalize hD : dot (sub b a) (sub b a) * dot (sub c a) (sub c a)
      - dot (sub b a) (sub c a) * dot (sub b a) (sub c a) = D at hd ⊢
    constructor
    · rw [e]
      have h1 : dot (sub c a) (sub b a) = dot (sub b a) (sub c a) := dot_comm' _ _
      rw [h1]
      field_simp
      rw [← hD]
      ring
    · rw [e]
      field_simp
      rw [← hD]
      ring

end Verif.Samples
