import Verif.Phong.NormalLemmas
import Mathlib.Tactic.IntervalCases

/-!
Property C175: the normals at the vertices of faces.
-/

namespace Verif.Phong

open Verif.Geom

/-- C175: a face with three or more vertices gets a normal for each of them, and the assertion never fails: the normal at
a vertex has the direction of the sum of the normals of the face and of those it is smoothed with, each weighed by its
area and its angles at the vertex; where the sum is zero, it is the face's own normal. -/
theorem normals_recorded (b : Bsp ℝ) (tex : Nat → Tex ℝ) (i : Nat) (f : Face ℝ) (h3 : 3 ≤ f.verts.length)
    (fs : List (Face ℝ)) (hfs : fs = (smoothFaces realOps b tex i f).filterMap fun j => b.faces[j]?) :
    ∃ ns, faceNormals realOps b tex i f = .ok ns ∧ ns.length = f.verts.length ∧
      ∀ (k v : Nat) (n : Vec ℝ), f.verts[k]? = some v → ns[k]? = some n →
        (Total b v (f :: fs) = ⟨0, 0, 0⟩ → n = f.norm) ∧
        (Total b v (f :: fs) ≠ ⟨0, 0, 0⟩ → IsUnit n ∧ ∃ s > 0, Total b v (f :: fs) = smul s n) := by
  have hm : ∀ vs : List Nat, (∀ v ∈ vs, v ∈ f.verts) → recordNormals realOps b tex i f vs
      = .ok (vs.map fun v => finish realOps f (Total b v (plusNeighbours realOps b tex i f))) := by
    intro vs
    induction vs with
    | nil => intro _; rfl
    | cons v vs ih =>
      intro h
      unfold recordNormals
      rw [normalAt_eq b tex i f v (h v List.mem_cons_self), Outcome.ok_bind,
        ih (fun u hu => h u (List.mem_cons_of_mem _ hu)), Outcome.ok_bind]
      rfl
  refine ⟨f.verts.map fun v => finish realOps f (Total b v (plusNeighbours realOps b tex i f)), ?_,
    List.length_map _, ?_⟩
  · unfold faceNormals
    rw [if_neg (by omega), hm f.verts (fun _ h => h)]
  · intro k v n hk hn
    rw [List.getElem?_map, hk, Option.map_some, Option.some_inj] at hn
    have hp : plusNeighbours realOps b tex i f = f :: fs := by rw [hfs]; rfl
    rw [hp] at hn
    generalize Total b v (f :: fs) = T at hn ⊢
    have hz : realOps.len T = 0 ↔ T = ⟨0, 0, 0⟩ := by
      constructor
      · intro h
        have h2 := len_sq T
        rw [h, mul_zero] at h2
        unfold dot at h2
        refine vec_ext ?_ ?_ ?_ <;>
          exact mul_self_eq_zero.1 (by nlinarith [mul_self_nonneg T.x, mul_self_nonneg T.y, mul_self_nonneg T.z])
      · rintro rfl
        simp [realOps, dot]
    unfold finish at hn
    refine ⟨fun h => ?_, fun h => ?_⟩
    · rw [if_pos (hz.2 h)] at hn
      exact hn.symm
    · have hne : realOps.len T ≠ 0 := fun h' => h (hz.1 h')
      rw [if_neg hne] at hn
      subst hn
      refine ⟨?_, realOps.len T, lt_of_le_of_ne (len_nonneg _) (Ne.symm hne), ?_⟩
      · unfold IsUnit
        rw [dot_smul, dot_comm', dot_smul, ← len_sq]
        field_simp
      · refine vec_ext ?_ ?_ ?_ <;> simp only [smul] <;> field_simp

/-- C175: a face that is smoothed with no other has its own normal at every vertex. -/
theorem normals_flat (b : Bsp ℝ) (tex : Nat → Tex ℝ) (i : Nat) (f : Face ℝ) (hu : IsUnit f.norm)
    (h : ∀ j, j ∉ smoothFaces realOps b tex i f) (v : Nat) (hv : v ∈ f.verts) :
    normalAt realOps b tex i f v = .ok f.norm := by
  rw [normalAt_eq b tex i f v hv]
  have h0 : smoothFaces realOps b tex i f = [] := List.eq_nil_iff_forall_not_mem.2 h
  unfold plusNeighbours
  rw [h0, List.filterMap_nil]
  have hT : Total b v [f] = smul (WeightAt b f v) f.norm := by simp [Total, smul]
  rw [hT]
  have hw := weightAt_nonneg b f v
  have hl : realOps.len (smul (WeightAt b f v) f.norm) = WeightAt b f v := by
    show Real.sqrt _ = _
    rw [dot_smul, dot_comm', dot_smul, hu, mul_one]
    exact Real.sqrt_mul_self hw
  unfold finish
  rw [hl]
  split
  · rfl
  · next hne =>
    congr 1
    refine vec_ext ?_ ?_ ?_ <;> simp only [smul] <;> field_simp

/-- C175: the normals of a face lie within its angle of the face's own normal, if that is at most 90 degrees. -/
theorem normals_within (b : Bsp ℝ) (tex : Nat → Tex ℝ) (i : Nat) (f : Face ℝ) (a : ℝ) (h0 : 0 ≤ a) (h90 : a ≤ 90)
    (hf : IsUnit f.norm) (hu : ∀ g ∈ b.faces, IsUnit g.norm)
    (ha : ∀ j g, j ∈ smoothFaces realOps b tex i f → b.faces[j]? = some g → degrees f.norm g.norm ≤ a)
    (v : Nat) (n : Vec ℝ) (hv : v ∈ f.verts) (hn : normalAt realOps b tex i f v = .ok n) :
    IsUnit n ∧ degrees n f.norm ≤ a := by
  rw [normalAt_eq b tex i f v hv, Outcome.ok.injEq] at hn
  have hn1 : IsUnit n := hn ▸ finish_unit f _ hf
  refine ⟨hn1, (degrees_le n f.norm hn1 hf a h0 (by linarith)).2 ?_⟩
  have hpi := Real.pi_pos
  have hc0 : 0 ≤ realOps.cosDeg a := by
    show 0 ≤ Real.cos (a * Real.pi / 180)
    apply Real.cos_nonneg_of_neg_pi_div_two_le_of_le
    · have : 0 ≤ a * Real.pi / 180 := by positivity
      linarith
    · rw [div_le_div_iff₀ (by norm_num) (by norm_num)]
      nlinarith
  rw [← hn]
  apply finish_ge b v f _ _ hc0 (Real.cos_le_one _) hf
  · intro g hg
    rcases List.mem_cons.1 hg with rfl | hg
    · exact hf
    · obtain ⟨j, _, hj⟩ := List.mem_filterMap.1 hg
      exact hu g (List.mem_of_getElem? hj)
  · intro g hg
    rcases List.mem_cons.1 hg with rfl | hg
    · rw [hf]; exact Real.cos_le_one _
    · obtain ⟨j, hjs, hj⟩ := List.mem_filterMap.1 hg
      have hgu := hu g (List.mem_of_getElem? hj)
      rw [dot_comm']
      exact (degrees_le f.norm g.norm hf hgu a h0 (by linarith)).1 (ha j g hjs hj)

/-- C175: two faces have the same normal at a vertex if the faces at that vertex that one of them is smoothed with,
itself among them, are those of the other, unless the normals cancel out, where each has its own. -/
theorem normals_shared (b : Bsp ℝ) (tex : Nat → Tex ℝ) (i j : Nat) (f g : Face ℝ)
    (hf : b.faces[i]? = some f) (hg : b.faces[j]? = some g) (v : Nat) (hvf : v ∈ f.verts) (hvg : v ∈ g.verts)
    (h : ∀ k c, b.faces[k]? = some c → v ∈ c.verts →
      ((k = i ∨ k ∈ smoothFaces realOps b tex i f) ↔ (k = j ∨ k ∈ smoothFaces realOps b tex j g)))
    (nf ng : Vec ℝ) (hnf : normalAt realOps b tex i f v = .ok nf) (hng : normalAt realOps b tex j g v = .ok ng) :
    nf = ng ∨ (nf = f.norm ∧ ng = g.norm) := by
  classical
  rw [normalAt_eq b tex i f v hvf, Outcome.ok.injEq] at hnf
  rw [normalAt_eq b tex j g v hvg, Outcome.ok.injEq] at hng
  -- only the faces at the vertex count
  have filt : ∀ ks : List Nat, Total b v (ks.filterMap fun k => b.faces[k]?)
      = Total b v ((ks.filter fun k => decide (∃ c, b.faces[k]? = some c ∧ v ∈ c.verts)).filterMap
        fun k => b.faces[k]?) := by
    intro ks
    induction ks with
    | nil => rfl
    | cons k ks ih =>
      cases hk : b.faces[k]? with
      | none =>
        rw [List.filter_cons_of_neg (by simp [hk]), List.filterMap_cons_none hk, ih]
      | some c =>
        rw [List.filterMap_cons_some hk, total_cons]
        by_cases hv : v ∈ c.verts
        · rw [List.filter_cons_of_pos (by simp [hk, hv]), List.filterMap_cons_some hk, total_cons, ih]
        · rw [List.filter_cons_of_neg (by simp [hk, hv]), weightAt_none b c v hv, ih]
          refine vec_ext ?_ ?_ ?_ <;> simp [add, smul]
  have hp : ∀ (i : Nat) (f : Face ℝ), b.faces[i]? = some f →
      plusNeighbours realOps b tex i f = (i :: smoothFaces realOps b tex i f).filterMap fun k => b.faces[k]? := by
    intro i f hf
    rw [List.filterMap_cons_some hf]
    rfl
  have hnd : ∀ (i : Nat) (f : Face ℝ), (i :: smoothFaces realOps b tex i f).Nodup := by
    intro i f
    have := smoothed_faces b tex i f
    exact List.nodup_cons.2 ⟨this.2.1, this.1⟩
  have hperm : ((i :: smoothFaces realOps b tex i f).filter
        fun k => decide (∃ c, b.faces[k]? = some c ∧ v ∈ c.verts)).Perm
      ((j :: smoothFaces realOps b tex j g).filter
        fun k => decide (∃ c, b.faces[k]? = some c ∧ v ∈ c.verts)) := by
    rw [List.perm_ext_iff_of_nodup ((hnd i f).filter _) ((hnd j g).filter _)]
    intro k
    simp only [List.mem_filter, List.mem_cons, decide_eq_true_eq]
    constructor
    · rintro ⟨hk, c, hc, hvc⟩
      exact ⟨(h k c hc hvc).1 hk, c, hc, hvc⟩
    · rintro ⟨hk, c, hc, hvc⟩
      exact ⟨(h k c hc hvc).2 hk, c, hc, hvc⟩
  have htot : Total b v (plusNeighbours realOps b tex i f) = Total b v (plusNeighbours realOps b tex j g) := by
    rw [hp i f hf, hp j g hg, filt, filt (j :: _)]
    have := hperm.filterMap fun k => b.faces[k]?
    unfold Total
    refine vec_ext ?_ ?_ ?_
    · exact (this.map _).sum_eq
    · exact (this.map _).sum_eq
    · exact (this.map _).sum_eq
  rw [htot] at hnf
  unfold finish at hnf hng
  split at hnf
  · next hz =>
    rw [if_pos hz] at hng
    exact Or.inr ⟨hnf.symm, hng.symm⟩
  · next hz =>
    rw [if_neg hz] at hng
    exact Or.inl (hnf.symm.trans hng)

/-- The hypotheses of `normals_within` can be met by a face that is smoothed with another. -/
example : ∃ (tex : Nat → Tex ℝ) (f : Face ℝ), twoFaces.faces[0]? = some f ∧ IsUnit f.norm ∧
    (∀ g ∈ twoFaces.faces, IsUnit g.norm) ∧ 1 ∈ smoothFaces realOps twoFaces tex 0 f ∧ 0 ∈ f.verts ∧
    ∀ j g, j ∈ smoothFaces realOps twoFaces tex 0 f → twoFaces.faces[j]? = some g → degrees f.norm g.norm ≤ 90 := by
  have hu : ∀ g ∈ twoFaces.faces, IsUnit g.norm := by
    intro g hg
    simp only [twoFaces, List.mem_cons, List.not_mem_nil, or_false] at hg
    rcases hg with rfl | rfl <;> norm_num [IsUnit, dot]
  have h90 : Real.cos (90 * Real.pi / 180) = 0 := by
    rw [show (90 : ℝ) * Real.pi / 180 = Real.pi / 2 by ring, Real.cos_pi_div_two]
  have hf : twoFaces.faces[0]? = some ⟨0, [0, 1, 2], ⟨0, 0, 1⟩, 0, 0, false⟩ := rfl
  refine ⟨fun _ => ⟨false, 90, 0, 0, 0, 0⟩, _, hf, hu _ (List.mem_of_getElem? hf), hu, ?_, by simp, ?_⟩
  · rw [mem_smoothFaces]
    refine ⟨by norm_num [wantsPhong, phongAngle, concaveAngle], rfl, by norm_num, _, rfl, ⟨0, by simp, by simp⟩,
      (smoothWith_iff _ _ _ _ _).2 ⟨by norm_num [wantsPhong, phongAngle, concaveAngle], rfl, rfl, rfl, ?_⟩⟩
    norm_num [phongAngle, concaveAngle, realOps, h90, dot]
  · intro j g _ hg
    have hgu := hu g (List.mem_of_getElem? hg)
    rw [degrees_le _ _ (hu _ (List.mem_of_getElem? hf)) hgu 90 (by norm_num) (by norm_num)]
    have hg := List.mem_of_getElem? hg
    simp only [twoFaces, List.mem_cons, List.not_mem_nil, or_false] at hg
    rcases hg with rfl | rfl <;> norm_num [realOps, h90, dot]

/-- The hypotheses of `normals_shared` can be met: in the same scene the two faces share their normal at the corner. -/
example : ∃ (tex : Nat → Tex ℝ) (f g : Face ℝ), twoFaces.faces[0]? = some f ∧ twoFaces.faces[1]? = some g ∧
    0 ∈ f.verts ∧ 0 ∈ g.verts ∧ ∀ k c, twoFaces.faces[k]? = some c → 0 ∈ c.verts →
      ((k = 0 ∨ k ∈ smoothFaces realOps twoFaces tex 0 f) ↔ (k = 1 ∨ k ∈ smoothFaces realOps twoFaces tex 1 g)) := by
  have h90 : Real.cos (90 * Real.pi / 180) = 0 := by
    rw [show (90 : ℝ) * Real.pi / 180 = Real.pi / 2 by ring, Real.cos_pi_div_two]
  have h01 : 1 ∈ smoothFaces realOps twoFaces (fun _ => ⟨false, 90, 0, 0, 0, 0⟩) 0
      ⟨0, [0, 1, 2], ⟨0, 0, 1⟩, 0, 0, false⟩ := by
    rw [mem_smoothFaces]
    refine ⟨by norm_num [wantsPhong, phongAngle, concaveAngle], rfl, by norm_num, _, rfl, ⟨0, by simp, by simp⟩,
      (smoothWith_iff _ _ _ _ _).2 ⟨by norm_num [wantsPhong, phongAngle, concaveAngle], rfl, rfl, rfl, ?_⟩⟩
    norm_num [phongAngle, concaveAngle, realOps, h90, dot]
  have h10 : 0 ∈ smoothFaces realOps twoFaces (fun _ => ⟨false, 90, 0, 0, 0, 0⟩) 1
      ⟨1, [0, 3, 4], ⟨4 / 5, 0, 3 / 5⟩, 0, 1, false⟩ :=
    (smoothed_both_ways_partial twoFaces _ 0 1 _ _ rfl rfl (Or.inl ⟨rfl, rfl⟩)).1 h01
  refine ⟨fun _ => ⟨false, 90, 0, 0, 0, 0⟩, _, _, rfl, rfl, by simp, by simp, ?_⟩
  intro k c hk _
  have hlt : k < 2 := (List.getElem?_eq_some_iff.1 hk).1
  interval_cases k
  · exact ⟨fun _ => Or.inr h10, fun _ => Or.inl rfl⟩
  · exact ⟨fun _ => Or.inl rfl, fun _ => Or.inr h01⟩

end Verif.Phong
