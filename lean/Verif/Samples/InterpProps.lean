import Verif.Samples.FaceLemmas

/-!
The normal of a sample on a smoothed face (C178).
-/

namespace Verif.Samples

open Verif.Geom Verif.Phong

theorem mem_zip_index {ps ns : List (Vec ℝ)} {i : Nat} {x : Vec ℝ × Vec ℝ} (h : (ps.zip ns)[i]? = some x) :
    ps[i]? = some x.1 ∧ ns[i]? = some x.2 := by
  rw [List.getElem?_zip_eq_some] at h
  exact h

/-- C178: a normal that is found for a point is a mix of the normals of the corners of one triangle around the first
corner: the mix, of weights with sum one, that takes the corners themselves to the foot of the perpendicular from the
point. A weight is negative only as far as the point may be outside of the triangle: `pointEps` past an edge. -/
theorem interpolated_normal_is_a_mix {ps ns : List (Vec ℝ)} {p m : Vec ℝ}
    (h : interpolate L (ps.zip ns) p = some m) :
    ∃ (i : Nat) (a b c na nb nc : Vec ℝ), ps[0]? = some a ∧ ps[i + 1]? = some b ∧ ps[i + 2]? = some c ∧
      ns[0]? = some na ∧ ns[i + 1]? = some nb ∧ ns[i + 2]? = some nc ∧
      ∃ w₀ w₁ w₂ : ℝ, w₀ + w₁ + w₂ = 1 ∧ m = Mix w₀ w₁ w₂ na nb nc ∧
        dot (sub p (Mix w₀ w₁ w₂ a b c)) (sub b a) = 0 ∧ dot (sub p (Mix w₀ w₁ w₂ a b c)) (sub c a) = 0 ∧
        0 < L (areaVec a b c) ∧
        -(pointEps * L (sub c b)) ≤ w₀ * L (areaVec a b c) ∧
        -(pointEps * L (sub a c)) ≤ w₁ * L (areaVec a b c) ∧
        -(pointEps * L (sub b a)) ≤ w₂ * L (areaVec a b c) := by
  unfold interpolate at h
  cases hz : ps.zip ns with
  | nil => rw [hz] at h; cases h
  | cons a rest =>
    rw [hz] at h
    simp only at h
    split at h
    · cases h
    · obtain ⟨i, b, c, hb, hc, hh⟩ := loop_from rest h
      have ha : (ps.zip ns)[0]? = some a := by rw [hz]; rfl
      have hb : (ps.zip ns)[i + 1]? = some b := by rw [hz]; simpa using hb
      have hc : (ps.zip ns)[i + 2]? = some c := by rw [hz]; simpa using hc
      obtain ⟨a1, a2⟩ := mem_zip_index ha
      obtain ⟨b1, b2⟩ := mem_zip_index hb
      obtain ⟨c1, c2⟩ := mem_zip_index hc
      exact ⟨i, a.1, b.1, c.1, a.2, b.2, c.2, a1, b1, c1, a2, b2, c2, interpolateIn_from hh⟩

/-- C178: where all corners have the same normal, so has every point. -/
theorem interpolated_normal_of_equal_normals {ps ns : List (Vec ℝ)} {p m k : Vec ℝ} (hk : ∀ v ∈ ns, v = k)
    (h : interpolate L (ps.zip ns) p = some m) : m = k := by
  obtain ⟨i, a, b, c, na, nb, nc, _, _, _, ha, hb, hc, w₀, w₁, w₂, hs, hm, _⟩ := interpolated_normal_is_a_mix h
  rw [hk na (List.mem_of_getElem? ha), hk nb (List.mem_of_getElem? hb), hk nc (List.mem_of_getElem? hc)] at hm
  rw [hm]
  refine vec_ext ?_ ?_ ?_ <;> (simp only [Mix]; rw [← add_mul, ← add_mul, hs, one_mul])

/-- C178: every point of a face without tiny edges, and every point up to `pointEps` past its edges, gets a normal. -/
theorem interpolated_normal_exists {n : Vec ℝ} {ps ns : List (Vec ℝ)} {p : Vec ℝ} (h : WellFormed n ps)
    (hn : ns.length = ps.length) (hp : ∀ a b, IsEdge ps a b → -pointEps ≤ inward n a b p) :
    ∃ m, interpolate L (ps.zip ns) p = some m := by
  have hl := length_of_some h
  have hzl : (ps.zip ns).length = ps.length := by simp [hn]
  obtain ⟨a, b, c, ⟨h0, i, hb, hc⟩, hB⟩ := h.some
  unfold interpolate
  cases hz : ps.zip ns with
  | nil => rw [hz] at hzl; simp at hzl; omega
  | cons z rest =>
    have hrl : rest.length + 1 = ps.length := by rw [hz] at hzl; simpa using hzl
    simp only
    rw [if_neg (by simp; omega)]
    cases rest with
    | nil => simp at hrl; omega
    | cons y rs =>
      have idx : ∀ (j : Nat) x, (y :: rs)[j]? = some x → ps[j + 1]? = some x.1 := by
        intro j x hx
        have : (ps.zip ns)[j + 1]? = some x := by rw [hz]; simpa using hx
        exact (mem_zip_index this).1
      have idx' : ∀ (j : Nat) v, ps[j + 1]? = some v → ∃ u, (y :: rs)[j]? = some u ∧ u.1 = v := by
        intro j v hv
        have hj := (List.getElem?_eq_some_iff.1 hv).1
        have hj' : j < (y :: rs).length := by omega
        refine ⟨(y :: rs)[j], List.getElem?_eq_getElem hj', ?_⟩
        have := idx j _ (List.getElem?_eq_getElem hj')
        rw [hv] at this
        exact (Option.some.inj this).symm
      have hz0 : ps[0]? = some z.1 := by
        have : (ps.zip ns)[0]? = some z := by rw [hz]; rfl
        exact (mem_zip_index this).1
      rw [h0] at hz0
      have hza : a = z.1 := Option.some.inj hz0
      refine loop_some h.unit rs y ?_ ?_ ?_ ?_
      · intro j x w hx hw
        have hx' := idx j x hx
        have hw' := idx (j + 1) w hw
        have hj := (List.getElem?_eq_some_iff.1 hw').1
        refine ⟨h.fan _ _ _ ⟨by rw [h0, hza], j, hx', hw'⟩, hp _ _ ⟨j + 1, hx', ?_⟩⟩
        rw [Nat.mod_eq_of_lt (by omega)]
        exact hw'
      · refine hp _ _ ⟨0, by rw [h0, hza], ?_⟩
        rw [Nat.mod_eq_of_lt (by omega)]
        exact idx 0 y rfl
      · right
        obtain ⟨u, hu, eu⟩ := idx' i b hb
        obtain ⟨v, hv, ev⟩ := idx' (i + 1) c hc
        exact ⟨i, u, v, hu, hv, by rw [eu, ev, ← hza]; exact hB⟩
      · have hlast : (y :: rs)[rs.length]? = some ((y :: rs).getLast (by simp)) := by
          rw [List.getLast_eq_getElem]
          rw [List.getElem?_eq_getElem (by simp)]
          simp
        have hlast' := idx _ _ hlast
        have hrs : rs.length + 2 = ps.length := by simpa using hrl
        have := hp _ _ ⟨rs.length + 1, hlast', by rw [hrs, Nat.mod_self]; exact h0⟩
        rw [inward_swap, hza] at this
        linarith

theorem le_L {v : Vec ℝ} {e : ℝ} (he : 0 ≤ e) (h : e * e ≤ dot v v) : e ≤ L v := by
  rw [← len_sq v] at h
  exact (mul_self_le_mul_self_iff he (len_nonneg v)).2 h

/-- A triangle. -/
def tri : List (Vec ℝ) := [⟨0, 0, 0⟩, ⟨0, 3, 0⟩, ⟨3, 0, 0⟩]

theorem tri_edge {a b : Vec ℝ} (h : IsEdge tri a b) :
    (a, b) = (⟨0, 0, 0⟩, ⟨0, 3, 0⟩) ∨ (a, b) = (⟨0, 3, 0⟩, ⟨3, 0, 0⟩) ∨ (a, b) = (⟨3, 0, 0⟩, ⟨0, 0, 0⟩) := by
  have := mem_edges.2 (show IsEdge tri (a, b).1 (a, b).2 from h)
  simpa [edges, tri] using this

theorem tri_fan {a b c : Vec ℝ} (h : IsFan tri a b c) : a = ⟨0, 0, 0⟩ ∧ b = ⟨0, 3, 0⟩ ∧ c = ⟨3, 0, 0⟩ := by
  obtain ⟨h0, i, hb, hc⟩ := h
  cases i with
  | zero =>
    simp only [tri, List.getElem?_cons_zero, List.getElem?_cons_succ, Option.some.injEq, zero_add] at h0 hb hc
    exact ⟨h0.symm, hb.symm, hc.symm⟩
  | succ i => simp [tri] at hc

theorem tri_big : Big ⟨0, 0, 1⟩ ⟨0, 0, 0⟩ ⟨0, 3, 0⟩ ⟨3, 0, 0⟩ := by
  refine ⟨⟨9, by norm_num [areaEps], ?_⟩, ?_, ?_, ?_⟩
  · refine vec_ext ?_ ?_ ?_ <;> norm_num [areaVec, cross, sub, smul]
  all_goals exact le_L (by norm_num [pointEps]) (by norm_num [pointEps, dot, sub])

theorem tri_wellFormed : WellFormed ⟨0, 0, 1⟩ tri := by
  refine ⟨by norm_num [dot], ?_, ?_, ?_⟩
  · intro a b h
    rcases tri_edge h with h | h | h <;> cases h <;>
      exact le_L (by norm_num [pointEps]) (by norm_num [pointEps, dot, sub])
  · intro a b c h
    obtain ⟨rfl, rfl, rfl⟩ := tri_fan h
    exact Or.inr tri_big
  · exact ⟨_, _, _, ⟨rfl, 0, rfl, rfl⟩, tri_big⟩

theorem tri_inside : ∀ a b, IsEdge tri a b → -pointEps ≤ inward ⟨0, 0, 1⟩ a b ⟨1, 1, 1⟩ := by
  intro a b h
  have hpos := pointEps_pos
  have : 0 ≤ inward ⟨0, 0, 1⟩ a b ⟨1, 1, 1⟩ := by
    unfold inward
    refine div_nonneg ?_ (len_nonneg _)
    rcases tri_edge h with h | h | h <;> cases h <;> norm_num [dot, cross, sub]
  linarith

/-- C178: but the mix is not brought back to length one: between corners with different normals it is shorter. -/
theorem interpolated_normal_not_unit :
    ∃ (ps ns : List (Vec ℝ)) (p m : Vec ℝ), (∀ v ∈ ns, dot v v = 1) ∧ interpolate L (ps.zip ns) p = some m ∧
      dot m m = 1 / 3 := by
  obtain ⟨m, hm⟩ := interpolated_normal_exists (ns := [⟨1, 0, 0⟩, ⟨0, 1, 0⟩, ⟨0, 0, 1⟩]) tri_wellFormed rfl tri_inside
  refine ⟨tri, _, ⟨1, 1, 1⟩, m, ?_, hm, ?_⟩
  · intro v hv
    simp only [List.mem_cons, List.not_mem_nil, or_false] at hv
    rcases hv with rfl | rfl | rfl <;> norm_num [dot]
  · obtain ⟨i, a, b, c, na, nb, nc, ha, hb, hc, hna, hnb, hnc, w₀, w₁, w₂, hs, e, f1, f2, _⟩ :=
      interpolated_normal_is_a_mix hm
    obtain ⟨rfl, rfl, rfl⟩ := tri_fan ⟨ha, i, hb, hc⟩
    have hi : i = 0 := by
      cases i with
      | zero => rfl
      | succ i => simp [tri] at hc
    subst hi
    simp only [List.getElem?_cons_zero, List.getElem?_cons_succ, Option.some.injEq, zero_add] at hna hnb hnc
    subst hna hnb hnc e
    simp only [Mix, dot, sub] at f1 f2 ⊢
    have g1 : w₁ = 1 / 3 := by linarith
    have g2 : w₂ = 1 / 3 := by linarith
    have g0 : w₀ = 1 / 3 := by linarith
    rw [g0, g1, g2]
    norm_num

/-- The hypotheses are met: the point above the middle of a triangle. -/
example : ∃ m, interpolate L (tri.zip [⟨0, 0, 1⟩, ⟨0, 0, 1⟩, ⟨0, 0, 1⟩]) ⟨1, 1, 1⟩ = some m ∧ m = ⟨0, 0, 1⟩ := by
  obtain ⟨m, hm⟩ := interpolated_normal_exists (ns := [⟨0, 0, 1⟩, ⟨0, 0, 1⟩, ⟨0, 0, 1⟩]) tri_wellFormed rfl tri_inside
  exact ⟨m, hm, interpolated_normal_of_equal_normals (by simp) hm⟩

end Verif.Samples
