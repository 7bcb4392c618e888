import Verif.Phong.SmoothProps
import Mathlib.Algebra.Order.BigOperators.Group.List

/-!
Lemmas on the sums of normals.
-/

namespace Verif.Phong

open Verif.Geom

theorem mem_corners {vs : List Nat} {v : Nat} : (∃ c ∈ corners vs, c.2.1 = v) ↔ v ∈ vs := by
  unfold corners
  simp only [List.mem_map, List.mem_range]
  constructor
  · rintro ⟨c, ⟨j, hj, rfl⟩, rfl⟩
    simp [List.getElem?_eq_getElem hj]
  · intro h
    obtain ⟨j, hj, rfl⟩ := List.mem_iff_getElem.1 h
    exact ⟨_, ⟨j, hj, rfl⟩, by simp [List.getElem?_eq_getElem hj]⟩

theorem vec_ext {a b : Vec ℝ} (h1 : a.x = b.x) (h2 : a.y = b.y) (h3 : a.z = b.z) : a = b := by
  cases a; cases b; simp_all

theorem foldl_corners (w : Nat × Nat × Nat → ℝ) (n : Vec ℝ) (cs : List (Nat × Nat × Nat)) (m : Sums ℝ) (v : Nat) :
    (cs.foldl (fun m c => Sums.add m c.2.1 (smul (w c) n)) m) v
      = if ∃ c ∈ cs, c.2.1 = v
        then some (add ((m v).getD ⟨0, 0, 0⟩) (smul ((cs.filter fun c => c.2.1 = v).map w).sum n))
        else m v := by
  induction cs generalizing m with
  | nil => simp
  | cons c cs ih =>
    rw [List.foldl_cons, ih]
    by_cases hc : c.2.1 = v
    · rw [if_pos (c := ∃ c' ∈ c :: cs, c'.2.1 = v) ⟨c, List.mem_cons_self, hc⟩]
      have hm : (Sums.add m c.2.1 (smul (w c) n)) v = some (add ((m v).getD ⟨0, 0, 0⟩) (smul (w c) n)) := by
        unfold Sums.add
        rw [hc, Function.update_self]
      rw [hm, List.filter_cons_of_pos (by simpa using hc), List.map_cons, List.sum_cons]
      by_cases h : ∃ c ∈ cs, c.2.1 = v
      · rw [if_pos h]
        refine congrArg some (vec_ext ?_ ?_ ?_) <;> simp only [add, smul, Option.getD_some] <;> ring
      · rw [if_neg h]
        have hn : cs.filter (fun c => c.2.1 = v) = [] := by
          rw [List.filter_eq_nil_iff]
          intro c hc h'
          exact h ⟨c, hc, by simpa using h'⟩
        rw [hn]
        refine congrArg some (vec_ext ?_ ?_ ?_) <;> simp [add, smul]
    · have hm : (Sums.add m c.2.1 (smul (w c) n)) v = m v := by
        unfold Sums.add
        rw [Function.update_of_ne (Ne.symm hc)]
      have hi : (∃ c' ∈ c :: cs, c'.2.1 = v) ↔ ∃ c' ∈ cs, c'.2.1 = v := by simp [hc]
      rw [hm, List.filter_cons_of_neg (by simpa using hc)]
      by_cases h : ∃ c ∈ cs, c.2.1 = v
      · rw [if_pos h, if_pos (hi.2 h)]
      · rw [if_neg h, if_neg (fun h' => h (hi.1 h'))]

theorem corners_eq (vs : List Nat) : corners vs = around vs := by
  apply List.ext_getElem
  · simp [corners, around]
  · intro j h1 h2
    have hj : j < vs.length := by simpa [corners] using h1
    have ha : (j + vs.length - 1) % vs.length = (j + (vs.length - 1)) % vs.length := by
      rw [Nat.add_sub_assoc (by omega)]
    have h3 : (j + (vs.length - 1)) % vs.length < vs.length := Nat.mod_lt _ (by omega)
    have h4 : (j + 1) % vs.length < vs.length := Nat.mod_lt _ (by omega)
    simp only [corners, around, List.getElem_map, List.getElem_range, List.getElem_zip, List.getElem_rotate, ha]
    simp only [List.getD_eq_getElem?_getD, List.getElem?_eq_getElem h3, List.getElem?_eq_getElem h4,
      List.getElem?_eq_getElem hj, Option.getD_some]

theorem angleBetween_eq (a b : Vec ℝ) : angleBetween realOps a b = angle a b := by
  have hn : ∀ v : Vec ℝ, 0 ≤ dot v v := by
    intro v
    unfold dot
    nlinarith [mul_self_nonneg v.x, mul_self_nonneg v.y, mul_self_nonneg v.z]
  have hc : ∀ x : ℝ, Real.arccos (min 1 (max (-1) x)) = Real.arccos x := by
    intro x
    rcases le_total x (-1) with h | h
    · rw [max_eq_left h, min_eq_right (by norm_num), Real.arccos_of_le_neg_one h, Real.arccos_neg_one]
    · rw [max_eq_right h]
      rcases le_total 1 x with h' | h'
      · rw [min_eq_left h', Real.arccos_one, Real.arccos_of_one_le h']
      · rw [min_eq_right h']
  unfold angleBetween angle realOps
  simp only [mul_eq_zero, Real.sqrt_eq_zero (hn _), hc]

theorem weightAt_eq (b : Bsp ℝ) (f : Face ℝ) (v : Nat) :
    (((corners f.verts).filter fun c => c.2.1 = v).map (weight realOps b f)).sum = WeightAt b f v := by
  unfold WeightAt
  rw [← corners_eq]
  congr 1
  apply List.map_congr_left
  intro c hc
  have : c.2.1 = v := by simpa using (List.mem_filter.1 hc).2
  unfold weight
  rw [this, angleBetween_eq]

theorem weightAt_none (b : Bsp ℝ) (f : Face ℝ) (v : Nat) (h : v ∉ f.verts) : WeightAt b f v = 0 := by
  unfold WeightAt
  rw [← corners_eq]
  have hn : (corners f.verts).filter (fun c => c.2.1 = v) = [] := by
    rw [List.filter_eq_nil_iff]
    intro c hc h'
    exact h (mem_corners.1 ⟨c, hc, by simpa using h'⟩)
  rw [hn]
  rfl

theorem addFace_at (b : Bsp ℝ) (m : Sums ℝ) (f : Face ℝ) (v : Nat) :
    addFace realOps b m f v
      = if v ∈ f.verts then some (add ((m v).getD ⟨0, 0, 0⟩) (smul (WeightAt b f v) f.norm)) else m v := by
  unfold addFace
  rw [foldl_corners, weightAt_eq]
  by_cases h : v ∈ f.verts
  · rw [if_pos (mem_corners.2 h), if_pos h]
  · rw [if_neg (fun h' => h (mem_corners.1 h')), if_neg h]

theorem total_cons (b : Bsp ℝ) (v : Nat) (f : Face ℝ) (fs : List (Face ℝ)) :
    Total b v (f :: fs) = add (smul (WeightAt b f v) f.norm) (Total b v fs) := by
  simp [Total, add, smul]

theorem foldl_faces (b : Bsp ℝ) (fs : List (Face ℝ)) (m : Sums ℝ) (v : Nat) :
    fs.foldl (addFace realOps b) m v
      = if ∃ f ∈ fs, v ∈ f.verts then some (add ((m v).getD ⟨0, 0, 0⟩) (Total b v fs)) else m v := by
  induction fs generalizing m with
  | nil => simp
  | cons f fs ih =>
    rw [List.foldl_cons, ih, addFace_at, total_cons]
    by_cases hf : v ∈ f.verts
    · rw [if_pos hf]
      have hp : ∃ g ∈ f :: fs, v ∈ g.verts := ⟨f, List.mem_cons_self, hf⟩
      rw [if_pos hp]
      by_cases h : ∃ g ∈ fs, v ∈ g.verts
      · rw [if_pos h]
        refine congrArg some (vec_ext ?_ ?_ ?_) <;> simp only [add, smul, Option.getD_some] <;> ring
      · rw [if_neg h]
        have hz : Total b v fs = ⟨0, 0, 0⟩ := by
          unfold Total
          have : ∀ g ∈ fs, WeightAt b g v = 0 := fun g hg => weightAt_none b g v (fun h' => h ⟨g, hg, h'⟩)
          refine vec_ext ?_ ?_ ?_ <;>
          · refine List.sum_eq_zero ?_
            intro x hx
            obtain ⟨g, hg, rfl⟩ := List.mem_map.1 hx
            rw [this g hg, zero_mul]
        rw [hz]
        refine congrArg some (vec_ext ?_ ?_ ?_) <;> simp [add, smul]
    · rw [if_neg hf]
      have hi : (∃ g ∈ f :: fs, v ∈ g.verts) ↔ ∃ g ∈ fs, v ∈ g.verts := by simp [hf]
      rw [weightAt_none b f v hf]
      by_cases h : ∃ g ∈ fs, v ∈ g.verts
      · rw [if_pos h, if_pos (hi.2 h)]
        refine congrArg some (vec_ext ?_ ?_ ?_) <;> simp [add, smul]
      · rw [if_neg h, if_neg (fun h' => h (hi.1 h'))]

theorem normalAt_eq (b : Bsp ℝ) (tex : Nat → Tex ℝ) (i : Nat) (f : Face ℝ) (v : Nat) (hv : v ∈ f.verts) :
    normalAt realOps b tex i f v
      = .ok (finish realOps f (Total b v (plusNeighbours realOps b tex i f))) := by
  unfold normalAt sums
  rw [foldl_faces, if_pos ⟨f, List.mem_cons_self, hv⟩]
  have : add ((none : Option (Vec ℝ)).getD ⟨0, 0, 0⟩) (Total b v (plusNeighbours realOps b tex i f))
      = Total b v (plusNeighbours realOps b tex i f) := by
    refine vec_ext ?_ ?_ ?_ <;> simp [add]
  rw [this]

theorem polyArea_nonneg (ps : List (Vec ℝ)) : 0 ≤ polyArea realOps ps := by
  unfold polyArea
  apply List.sum_nonneg
  intro x hx
  obtain ⟨t, _, rfl⟩ := List.mem_map.1 hx
  unfold triArea
  exact mul_nonneg (by norm_num) (Real.sqrt_nonneg _)

theorem angle_nonneg (a b : Vec ℝ) : 0 ≤ angle a b := by
  unfold angle
  split
  · exact le_rfl
  · exact Real.arccos_nonneg _

theorem weightAt_nonneg (b : Bsp ℝ) (f : Face ℝ) (v : Nat) : 0 ≤ WeightAt b f v := by
  unfold WeightAt
  apply List.sum_nonneg
  intro x hx
  obtain ⟨t, _, rfl⟩ := List.mem_map.1 hx
  exact mul_nonneg (polyArea_nonneg _) (angle_nonneg _ _)

theorem dot_add (a b c : Vec ℝ) : dot (add a b) c = dot a c + dot b c := by unfold dot add; ring
theorem dot_smul (s : ℝ) (a c : Vec ℝ) : dot (smul s a) c = s * dot a c := by unfold dot smul; ring
theorem dot_comm' (a b : Vec ℝ) : dot a b = dot b a := by unfold dot; ring
theorem dot_self_nonneg (a : Vec ℝ) : 0 ≤ dot a a := by
  unfold dot; nlinarith [mul_self_nonneg a.x, mul_self_nonneg a.y, mul_self_nonneg a.z]

/-- Cauchy's inequality with a unit vector. -/
theorem dot_unit_sq (a n : Vec ℝ) (hn : IsUnit n) : dot a n * dot a n ≤ dot a a := by
  unfold IsUnit at hn
  have h : 0 ≤ dot (add a (smul (-(dot a n)) n)) (add a (smul (-(dot a n)) n)) := dot_self_nonneg _
  rw [dot_add, dot_smul, dot_comm' a, dot_comm' n, dot_add, dot_smul, dot_add, dot_smul, dot_comm' n a, hn] at h
  nlinarith

/-- The sum of the weights. -/
noncomputable def weights (b : Bsp ℝ) (v : Nat) (fs : List (Face ℝ)) : ℝ := (fs.map fun f => WeightAt b f v).sum

theorem weights_nonneg (b : Bsp ℝ) (v : Nat) (fs : List (Face ℝ)) : 0 ≤ weights b v fs := by
  unfold weights
  apply List.sum_nonneg
  intro x hx
  obtain ⟨t, _, rfl⟩ := List.mem_map.1 hx
  exact weightAt_nonneg _ _ _

theorem weights_cons (b : Bsp ℝ) (v : Nat) (f : Face ℝ) (fs : List (Face ℝ)) :
    weights b v (f :: fs) = WeightAt b f v + weights b v fs := by
  simp [weights]

theorem total_le (b : Bsp ℝ) (v : Nat) (fs : List (Face ℝ)) (h : ∀ f ∈ fs, IsUnit f.norm) :
    dot (Total b v fs) (Total b v fs) ≤ weights b v fs * weights b v fs := by
  induction fs with
  | nil => simp [Total, weights, dot]
  | cons f fs ih =>
    have ih := ih (fun g hg => h g (List.mem_cons_of_mem _ hg))
    have hu := h f List.mem_cons_self
    have hw := weightAt_nonneg b f v
    have hW := weights_nonneg b v fs
    have h2 := dot_unit_sq (Total b v fs) f.norm hu
    have h3 : dot (Total b v fs) f.norm ≤ weights b v fs := by
      by_contra hc
      push Not at hc
      nlinarith
    rw [total_cons, weights_cons, dot_add, dot_smul, dot_comm' f.norm, dot_comm' (Total b v fs), dot_add, dot_add,
      dot_smul, dot_smul, hu, dot_comm' f.norm]
    nlinarith [mul_le_mul_of_nonneg_left h3 hw]

theorem total_ge (b : Bsp ℝ) (v : Nat) (fs : List (Face ℝ)) (n : Vec ℝ) (c : ℝ)
    (h : ∀ f ∈ fs, c ≤ dot f.norm n) : c * weights b v fs ≤ dot (Total b v fs) n := by
  induction fs with
  | nil => simp [Total, weights, dot]
  | cons f fs ih =>
    have ih := ih (fun g hg => h g (List.mem_cons_of_mem _ hg))
    have hc := h f List.mem_cons_self
    have hw := weightAt_nonneg b f v
    rw [total_cons, weights_cons, dot_add, dot_smul]
    nlinarith [mul_le_mul_of_nonneg_left hc hw]

theorem len_sq (v : Vec ℝ) : realOps.len v * realOps.len v = dot v v := Real.mul_self_sqrt (dot_self_nonneg v)
theorem len_nonneg (v : Vec ℝ) : 0 ≤ realOps.len v := Real.sqrt_nonneg _

theorem finish_unit (f : Face ℝ) (n : Vec ℝ) (hf : IsUnit f.norm) : IsUnit (finish realOps f n) := by
  unfold finish
  split
  · exact hf
  · next h =>
    unfold IsUnit
    rw [dot_smul, dot_comm', dot_smul, ← len_sq]
    field_simp

theorem finish_ge (b : Bsp ℝ) (v : Nat) (f : Face ℝ) (fs : List (Face ℝ)) (c : ℝ) (h0 : 0 ≤ c) (h1 : c ≤ 1)
    (hf : IsUnit f.norm) (hu : ∀ g ∈ fs, IsUnit g.norm) (hc : ∀ g ∈ fs, c ≤ dot g.norm f.norm) :
    c ≤ dot (finish realOps f (Total b v fs)) f.norm := by
  unfold finish
  split
  · rw [hf]; exact h1
  · next hne =>
    have hlen : 0 < realOps.len (Total b v fs) := lt_of_le_of_ne (len_nonneg _) (Ne.symm hne)
    have hW := weights_nonneg b v fs
    have h3 : realOps.len (Total b v fs) ≤ weights b v fs := by
      by_contra hcon
      push Not at hcon
      have := total_le b v fs hu
      rw [← len_sq] at this
      nlinarith
    have h4 := total_ge b v fs f.norm c hc
    rw [dot_smul, one_div, inv_mul_eq_div, le_div_iff₀ hlen]
    nlinarith [mul_le_mul_of_nonneg_left h3 h0]

end Verif.Phong
