import Verif.Decompile.RedundantLemmas

/-! C166: leaving out redundant planes. -/

namespace Verif.Decompile

open Verif.Geom Verif.Geom.Spec Verif.Tree Verif.BrushBsp

variable {K : Type} [Field K] [LinearOrder K] [IsStrictOrderedRing K]

/-- C166: leaving out redundant planes does not change the brush, if no two planes are the same, no vertex is within the
tolerance of a plane without being on it, the brush is not flat and it is within the world. Not covered: planes that are
the same, for which it is false (`coincident_planes_lost`), and what the tolerance of the clipping leaves out. -/
theorem reduced_region_partial {eps r : K} (he : 0 ≤ eps) {base : Plane K → List (Vec K)} {planes : List (DecPlane K)}
    (hu : ∀ q ∈ planes, UnitNormal q.plane) (hd : (planes.map (·.plane)).Nodup)
    (hb : ∀ q ∈ planes, BaseOk r base q.plane)
    (hn : ∀ q ∈ planes, ∀ l : List (DecPlane K), (∀ c ∈ l, c ∈ planes) → NoneNear eps l (base q.plane))
    (hw : ∀ x, Region planes x → dot x x ≤ r * r) (hs : ∃ y, Inner planes y) (x : Vec K) :
    Region (removeRedundant eps base planes) x ↔ Region planes x := by
  constructor
  · intro h
    refine removeLoop_region ⟨he, hu, hb, hn, hw, hs⟩ hd planes [] 0 (by simp) (by simp) (by simp) (by simp) x h
  · intro h q hq
    rcases removeLoop_mem planes 0 [] q hq with h' | h'
    · simp at h'
    · exact h q h'

/-- C166: no plane is left whose base polygon is wholly in front of another plane that is left. -/
theorem redundant_removed {eps : K} (he : 0 ≤ eps) {base : Plane K → List (Vec K)} {planes : List (DecPlane K)}
    (hu : ∀ q ∈ planes, UnitNormal q.plane) {a b : List (DecPlane K)} {p : DecPlane K}
    (h : removeRedundant eps base planes = a ++ p :: b) :
    p ∈ planes ∧ ∀ q ∈ a ++ b, ∃ v ∈ base p.plane, q.plane.distTo v < -eps := by
  obtain ⟨sub, h1, h2, h3⟩ := removeLoop_shape (eps := eps) (base := base) (all := planes) planes 0 []
  rw [show removeLoop eps base planes 0 [] planes = removeRedundant eps base planes from rfl, h, List.nil_append] at h1
  refine ⟨h2 p (by rw [← h1]; simp), ?_⟩
  intro q hq
  obtain ⟨o, o1, o2, o3⟩ := h3 a p b h1.symm
  by_contra hcon
  push Not at hcon
  refine o3 (clipAll_front he o _ ?_ hcon (o1 q (by simpa using hq)))
  intro c hc
  rcases o2 c hc with h | h | h
  · simp at h
  · exact hu c h
  · exact hu c h

/-- C166 does not hold when a plane is there twice: when two planes next to each other are the same, both are left out, as
the test of the second still sees the first, which has been removed. -/
theorem coincident_planes_lost {eps : K} (he : 0 ≤ eps) {base : Plane K → List (Vec K)} {a b : List (DecPlane K)}
    {p q : DecPlane K} (hu : ∀ c ∈ a ++ p :: q :: b, UnitNormal c.plane) (hpq : q.plane = p.plane)
    (hb : ∀ v ∈ base p.plane, p.plane.distTo v = 0) :
    ∀ c ∈ removeRedundant eps base (a ++ p :: q :: b), c ∈ a ∨ c ∈ b := by
  intro c hc
  unfold removeRedundant at hc
  obtain ⟨kept, h1, h2, h3⟩ := removeLoop_append (eps := eps) (base := base) (all := a ++ p :: q :: b) a (p :: q :: b) 0 []
    (by simp)
  rw [h1, Nat.zero_add] at hc
  rw [Nat.zero_add] at h2
  have h3' : ∀ c ∈ kept, c ∈ a := by
    intro c hc
    rcases h3 c hc with h | h
    · simp at h
    · exact h
  have hmem : ∀ l : List (DecPlane K), (∀ d ∈ l, d ∈ a ++ p :: q :: b) → ∀ d ∈ l, UnitNormal d.plane :=
    fun l hl d hd => hu d (hl d hd)
  have hdrop : ∀ d ∈ (a ++ p :: q :: b).drop kept.length, d ∈ a ++ p :: q :: b := fun d hd => List.mem_of_mem_drop hd
  simp only [removeLoop] at hc
  rw [if_pos] at hc
  · rw [if_pos] at hc
    · rcases removeLoop_mem b _ _ c hc with h | h
      · exact Or.inl (h3' c h)
      · exact Or.inr h
    · rw [Option.isNone_iff_eq_none]
      refine clipAll_front he (q := p) _ _ ?_ ?_ ?_
      · apply hmem
        intro d hd
        rcases List.mem_append.1 hd with hd | hd
        · exact List.mem_append_left _ (h3' d hd)
        · rcases List.mem_append.1 hd with hd | hd
          · exact hdrop d (List.mem_of_mem_take hd)
          · simp [hd]
      · intro v hv
        rw [hpq] at hv
        rw [hb v hv]
        linarith
      · apply List.mem_append_right
        apply List.mem_append_left
        rw [List.drop_append_of_le_length h2, show a.length + 1 - kept.length = (a.drop kept.length).length + 1 by
          simp; omega, List.take_length_add_append]
        simp
  · rw [Option.isNone_iff_eq_none]
    refine clipAll_front he (q := q) _ _ ?_ ?_ (by simp)
    · apply hmem
      intro d hd
      rcases List.mem_append.1 hd with hd | hd
      · exact List.mem_append_left _ (h3' d hd)
      · rcases List.mem_append.1 hd with hd | hd
        · exact hdrop d (List.mem_of_mem_take hd)
        · apply List.mem_append_right
          exact List.mem_cons_of_mem _ hd
    · intro v hv
      rw [hpq, hb v hv]
      linarith

/-- C166: the sides of the brush of a Quake II map enclose the same points as all planes, also when planes are the same, as
long as no side that is left is too thin. -/
theorem q2_region {eps r : K} (he : 0 ≤ eps) {base : Plane K → List (Vec K)} {thin : List (Vec K) → Bool}
    {planes : List (DecPlane K)} (hu : ∀ q ∈ planes, UnitNormal q.plane) (hb : ∀ q ∈ planes, BaseOk r base q.plane)
    (hn : ∀ q ∈ planes, ∀ l : List (DecPlane K), (∀ c ∈ l, c ∈ planes) → NoneNear eps l (base q.plane))
    (hw : ∀ x, Region planes x → dot x x ≤ r * r) (hs : ∃ y, Inner planes y)
    (ht : ∀ q ∈ planes, ∀ l w, clipAll eps l (base q.plane) = some w → thin w = false) (x : Vec K) :
    Region ((q2Sides eps base thin planes).map (·.1)) x ↔ Region planes x := by
  constructor
  · intro h
    exact q2Loop_region ⟨he, hu, hb, hn, hw, hs⟩ ht planes.reverse [] (by simp) (by simp) (by simp) x
      (by intro c hc; simp at hc) h
  · intro h q hq
    obtain ⟨s, hs', rfl⟩ := List.mem_map.1 hq
    have := (q2Loop_mem planes.reverse [] s hs').1
    exact h s.1 (by simpa using this)

/-- C166: no side of the brush of a Quake II map is too thin. -/
theorem q2_no_thin {eps : K} {base : Plane K → List (Vec K)} {thin : List (Vec K) → Bool} {planes : List (DecPlane K)}
    {s : DecPlane K × List (Vec K)} (h : s ∈ q2Sides eps base thin planes) : s.1 ∈ planes ∧ thin s.2 = false := by
  have := q2Loop_mem planes.reverse [] s h
  exact ⟨by simpa using this.1, this.2.1⟩

/-! ## An example: a box, cut by a plane and with a plane outside of it -/

def boxPlanes : List (DecPlane ℚ) := boundsPlanes ⟨-8, -8, -8⟩ ⟨8, 8, 8⟩ ++
  [⟨⟨⟨1, 0, 0⟩, 4⟩, some 0, none⟩, ⟨⟨⟨0, 1, 0⟩, 30⟩, some 1, none⟩]

theorem box_unit : ∀ q ∈ boxPlanes, UnitNormal q.plane := by
  simp [boxPlanes, boundsPlanes, UnitNormal, dot]

theorem box_base : ∀ q ∈ boxPlanes, BaseOk 100 (fromPlane id 100) q.plane := by
  intro q hq
  have h := from_plane_ok (normalize := id) (w := (100 : ℚ)) (by norm_num) (box_unit q hq) ⟨1, by simp⟩ (by
    revert q
    simp only [boxPlanes, boundsPlanes, List.cons_append, List.nil_append, List.mem_cons, List.not_mem_nil, or_false,
      forall_eq_or_imp, forall_eq]
    decide +kernel)
  exact ⟨h.1, h.2.1, h.2.2⟩

theorem box_world : ∀ x, Region boxPlanes x → dot x x ≤ (100 : ℚ) * 100 := by
  intro x hx
  obtain ⟨⟨h1, h2⟩, ⟨h3, h4⟩, h5, h6⟩ := bounds_region.1 (region_append.1 hx).1
  simp only [dot] at *
  nlinarith [mul_nonneg (sub_nonneg.2 h1) (sub_nonneg.2 h2), mul_nonneg (sub_nonneg.2 h3) (sub_nonneg.2 h4),
    mul_nonneg (sub_nonneg.2 h5) (sub_nonneg.2 h6)]

theorem box_solid : ∃ y, Inner boxPlanes y := ⟨⟨0, 0, 0⟩, by
  simp [Inner, boxPlanes, boundsPlanes, Plane.distTo, dot]⟩

example (x : Vec ℚ) : Region (removeRedundant 0 (fromPlane id 100) boxPlanes) x ↔ Region boxPlanes x :=
  reduced_region_partial (le_refl _) box_unit (by decide +kernel) box_base (fun _ _ _ _ => noneNear_zero _ _) box_world
    box_solid x

example : (removeRedundant 0 (fromPlane id 100) boxPlanes).length = 6 := by decide +kernel

example (x : Vec ℚ) : Region ((q2Sides 0 (fromPlane id 100) (fun _ => false) boxPlanes).map (·.1)) x ↔ Region boxPlanes x :=
  q2_region (le_refl _) box_unit box_base (fun _ _ _ _ => noneNear_zero _ _) box_world box_solid (fun _ _ _ _ _ => rfl) x

/-- A tree that is cut first along the bottom of the model: the brush of the leaf above is open to below. -/
theorem brush_left_open :
    (modelTasks [⟨⟨⟨0, 0, 1⟩, -8⟩, .z⟩] [⟨0, -1, -2, 0, 0⟩] floorLeafs (⟨-8, -8, -8⟩ : Vec ℚ) ⟨8, 8, 8⟩ 5 0).bind (fun r =>
      match r with
      | .ok [t] => some ((removeRedundant (1 / 10) (fromPlane id 100) t.planes).map (·.plane))
      | _ => none) =
    some [⟨⟨1, 0, 0⟩, 8⟩, ⟨⟨-1, 0, 0⟩, 8⟩, ⟨⟨0, 1, 0⟩, 8⟩, ⟨⟨0, -1, 0⟩, 8⟩, ⟨⟨0, 0, 1⟩, 8⟩] := by decide +kernel

end Verif.Decompile
