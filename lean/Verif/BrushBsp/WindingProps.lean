import Verif.BrushBsp.WindingLemmas

/-! C96: the polygons that `CreateBrushWindings` makes enclose the brush. -/

namespace Verif.BrushBsp

open Geom Geom.Spec Spec

set_option linter.unusedSectionVars false

variable {K C : Type} [Field K] [LinearOrder K] [IsStrictOrderedRing K]

/-- The base polygon of every plane is a convex polygon in the plane that spans all of it in the world, if the function
that makes vectors have length 1 works for the direction upwards. -/
theorem from_plane_ok {normalize : Vec K → Vec K} {w : K} (hw : 0 ≤ w) {pl : Plane K} (hu : UnitNormal pl)
    (hn : ∃ c, normalize (upOf pl.normal) = ⟨c * (upOf pl.normal).x, c * (upOf pl.normal).y, c * (upOf pl.normal).z⟩)
    (h1 : dot (normalize (upOf pl.normal)) (normalize (upOf pl.normal)) = 1) :
    ConvexPoly (fromPlane normalize w pl) ∧ (∀ v ∈ fromPlane normalize w pl, pl.distTo v = 0) ∧
    ∀ q, pl.distTo q = 0 → dot q q ≤ w * w → InHull (fromPlane normalize w pl) q := by
  have hu' : pl.normal.x * pl.normal.x + pl.normal.y * pl.normal.y + pl.normal.z * pl.normal.z = 1 := hu
  have ho0 : dot (upOf pl.normal) pl.normal = 0 := by
    have key : ∀ a b c : K, dot (⟨a + pl.normal.x * -dot ⟨a, b, c⟩ pl.normal, b + pl.normal.y * -dot ⟨a, b, c⟩ pl.normal,
        c + pl.normal.z * -dot ⟨a, b, c⟩ pl.normal⟩ : Vec K) pl.normal = 0 := by
      intro a b c
      simp only [dot]
      linear_combination (-(a * pl.normal.x + b * pl.normal.y + c * pl.normal.z)) * hu'
    unfold upOf
    by_cases hc : |pl.normal.z| > |pl.normal.x| ∧ |pl.normal.z| > |pl.normal.y|
    · simp only [if_pos hc]; exact key 1 0 0
    · simp only [if_neg hc]; exact key 0 0 1
  have ho : dot (normalize (upOf pl.normal)) pl.normal = 0 := by
    obtain ⟨c, e⟩ := hn
    rw [e]
    simp only [dot] at ho0 ⊢
    linear_combination c * ho0
  exact ⟨square_convex hu h1 ho, square_on hu ho, fun q hq hb => square_spans hu h1 ho hw hq hb⟩

theorem clipFront_exact {pl : Plane K} {eps : K} (he : 0 ≤ eps) {w w' : List (Vec K)}
    (hn : ∀ v ∈ w, |pl.distTo v| ≤ eps → pl.distTo v = 0) (h : clipFront pl eps false w = some w') : Part pl 0 w w' := by
  have hs : ∀ v ∈ w, sideOf eps (pl.distTo v) = sideOf 0 (pl.distTo v) := by
    intro v hv
    have := hn v hv
    unfold sideOf
    by_cases h1 : |pl.distTo v| ≤ eps
    · rw [this h1]
      rw [if_neg (by linarith), if_neg (by linarith), if_neg (by simp), if_neg (by simp)]
    · rw [not_le] at h1
      rcases lt_abs.1 h1 with h2 | h2
      · rw [if_pos h2, if_pos (by linarith)]
      · rw [if_neg (by linarith), if_pos (by linarith), if_neg (by linarith), if_pos (by linarith)]
  have hc : ∀ s, countSide pl eps w s = countSide pl 0 w s := by
    intro s
    unfold countSide
    congr 1
    apply List.filter_congr
    intro v hv
    rw [hs v hv]
  have hcalc : calcSides pl eps w = calcSides pl 0 w := by
    unfold calcSides
    have : (w.map fun p => (pl.distTo p, sideOf eps (pl.distTo p))) = w.map fun p => (pl.distTo p, sideOf 0 (pl.distTo p)) := by
      apply List.map_congr_left
      intro v hv
      rw [hs v hv]
    simp only [this]
  have e : clipFront pl 0 false w = some w' := by
    rw [← h]
    unfold clipFront
    simp only [hc, hcalc]
  apply clip_front_part (k := false)
  rw [clip_front_back_agree, e]

/-- Clipping by the other sides keeps what is in the set. -/
theorem others_chain {env : Env K C} (hok : PlanesOk env) {eps : K} (he : 0 ≤ eps) {i : Nat} {T : Vec K → Prop} :
    ∀ (l : List (Side K × Nat)) (w m : List (Vec K)), (∀ x ∈ l, x.1.bevel = false) →
    (∀ x ∈ l, ∀ q, T q → (env.planes x.1.planenum).distTo q ≤ 0) →
    NoneNearBy env eps i l w → ConvexPoly w → clipByOthers env eps i l w = some m →
    ConvexPoly m ∧ (∀ q, T q → InHull w q → InHull m q) ∧ (∀ v ∈ m, InHull w v) ∧
      ∀ x ∈ l, x.2 ≠ i → ∀ v ∈ m, (env.planes x.1.planenum).distTo v ≤ 0 := by
  intro l
  induction l with
  | nil =>
    intro w m _ _ _ hc h
    simp only [clipByOthers, Option.some.injEq] at h
    subst h
    exact ⟨hc, fun _ _ h => h, fun v hv g => ⟨v, hv, le_refl _⟩, by simp⟩
  | cons x l ih =>
    intro w m hb hT hn hc h
    obtain ⟨s, j⟩ := x
    have hb' := fun x hx => hb x (List.mem_cons_of_mem _ hx)
    have hT' := fun x hx => hT x (List.mem_cons_of_mem _ hx)
    by_cases hij : i = j
    · simp only [NoneNearBy, if_pos hij] at hn
      simp only [clipByOthers, if_pos (Or.inl hij)] at h
      obtain ⟨a, b, c, d⟩ := ih w m hb' hT' hn hc h
      refine ⟨a, b, c, ?_⟩
      intro x hx hne
      rcases List.mem_cons.1 hx with rfl | hx
      · exact absurd hij.symm hne
      · exact d x hx hne
    · simp only [NoneNearBy, if_neg hij] at hn
      have hbs : s.bevel = false := hb (s, j) List.mem_cons_self
      simp only [clipByOthers] at h
      rw [if_neg (by rintro (h | h); exact hij h; rw [hbs] at h; cases h)] at h
      cases hcb : clipFront (env.planes (flipNum s.planenum)) eps false w with
      | none => rw [hcb] at h; cases h
      | some w' =>
        rw [hcb] at h
        have hpart : Part (env.planes (flipNum s.planenum)) 0 w w' := by
          apply clipFront_exact he _ hcb
          intro v hv
          rw [hok.flip, abs_neg, neg_eq_zero]
          exact hn.1 v hv
        have hun := hok.unit (flipNum s.planenum)
        obtain ⟨n, k, hcw⟩ := hc
        obtain ⟨a, b, c, d⟩ := ih w' m hb' hT' (hn.2 w' hcb) ⟨n, k, part_convex hun hcw hpart⟩ h
        refine ⟨a, ?_, ?_, ?_⟩
        · intro q hq hh
          apply b q hq
          apply part_hull hun hcw hpart hh
          rw [hok.flip]
          linarith [hT (s, j) List.mem_cons_self q hq]
        · intro v hv g
          obtain ⟨x, hx, e⟩ := c v hv g
          obtain ⟨p, hp, q, hq, t, h0, h1, rfl⟩ := part_onSeg (le_refl 0) hun hpart x hx
          rw [dot_along] at e
          rcases le_total (dot g p) (dot g q) with hle | hle
          · refine ⟨q, hq, ?_⟩
            have := mul_le_mul_of_nonneg_left hle (show 0 ≤ 1 - t by linarith)
            linarith
          · refine ⟨p, hp, ?_⟩
            have := mul_le_mul_of_nonneg_left hle h0
            linarith
        · intro x hx hne v hv
          rcases List.mem_cons.1 hx with rfl | hx
          · apply inHull_le (c v hv)
            intro y hy
            have := (part_vertices (le_refl 0) hun hpart y hy).1
            rw [hok.flip] at this
            simp only
            linarith
          · exact d x hx hne v hv

theorem abs_le_world {w : K} (hw : 0 ≤ w) {v : Vec K} (h : dot v v ≤ w * w) : |v.x| ≤ w ∧ |v.y| ≤ w ∧ |v.z| ≤ w := by
  have h1 := mul_self_nonneg v.x
  have h2 := mul_self_nonneg v.y
  have h3 := mul_self_nonneg v.z
  simp only [dot] at h
  have key : ∀ a : K, a * a ≤ w * w → |a| ≤ w := fun a ha => abs_le_of_sq_le_sq (by simpa [sq] using ha) hw
  exact ⟨key _ (by linarith), key _ (by linarith), key _ (by linarith)⟩

/-- The polygon of one side. -/
theorem side_winding {env : Env K C} (hok : PlanesOk env) (hw : 0 ≤ env.worldextent) {eps : K} (he : 0 ≤ eps)
    {b : Brush K C} (hbev : ∀ s ∈ b.sides, s.bevel = false)
    (hworld : ∀ q, Inside env b q → dot q q ≤ env.worldextent * env.worldextent)
    {x : Side K × Nat} (hx : x ∈ b.sides.zipIdx)
    (hclean : NoneNearBy env eps x.2 b.sides.zipIdx (env.base (env.planes x.1.planenum))) :
    ∃ s', sideWinding env eps b.sides.zipIdx x = .ok s' ∧ s'.planenum = x.1.planenum ∧ ConvexPoly s'.w ∧
      (∀ v ∈ s'.w, (env.planes x.1.planenum).distTo v = 0 ∧ Inside env b v) ∧
      (s'.w ≠ [] → ∀ q, Inside env b q → (env.planes x.1.planenum).distTo q = 0 → InHull s'.w q) := by
  have hz : ∀ y ∈ b.sides.zipIdx, y.1 ∈ b.sides := by
    intro y hy
    obtain ⟨s, j⟩ := y
    exact List.mem_of_getElem? (List.mk_mem_zipIdx_iff_getElem?.1 hy)
  unfold sideWinding
  cases hc : clipByOthers env eps x.2 b.sides.zipIdx (env.base (env.planes x.1.planenum)) with
  | none =>
    refine ⟨_, rfl, rfl, ?_, by simp, by simp⟩
    obtain ⟨n, k, h⟩ := hok.baseConvex x.1.planenum
    exact ⟨n, k, h.ne, by simp, by simp [edges]⟩
  | some m =>
    obtain ⟨a, bb, c, d⟩ := others_chain hok he (T := Inside env b) b.sides.zipIdx _ m (fun y hy => hbev _ (hz y hy))
      (fun y hy q hq => hq _ (hz y hy)) hclean (hok.baseConvex _) hc
    have hon : ∀ v ∈ m, (env.planes x.1.planenum).distTo v = 0 := fun v hv =>
      le_antisymm (inHull_le (c v hv) (fun y hy => le_of_eq (hok.baseOn _ y hy)))
        (inHull_ge (c v hv) (fun y hy => le_of_eq (hok.baseOn _ y hy).symm))
    have hin : ∀ v ∈ m, Inside env b v := by
      intro v hv s hs
      obtain ⟨j, hj⟩ := List.mem_iff_getElem?.1 hs
      have hmem : (s, j) ∈ b.sides.zipIdx := List.mk_mem_zipIdx_iff_getElem?.2 hj
      by_cases hji : j = x.2
      · have hx' : b.sides[x.2]? = some x.1 := by
          obtain ⟨s, k⟩ := x
          exact List.mk_mem_zipIdx_iff_getElem?.1 hx
        rw [hji, hx'] at hj
        cases hj
        exact le_of_eq (hon v hv)
      · exact d (s, j) hmem hji v hv
    have hval : pointsValid env.worldextent m = true := by
      unfold pointsValid
      rw [List.all_eq_true]
      intro v hv
      obtain ⟨h1, h2, h3⟩ := abs_le_world hw (hworld v (hin v hv))
      simp only [Bool.not_eq_true', Bool.or_eq_false_iff, decide_eq_false_iff_not, not_lt, gt_iff_lt]
      exact ⟨⟨h1, h2⟩, h3⟩
    simp only [hval, if_true]
    exact ⟨_, rfl, rfl, a, fun v hv => ⟨hon v hv, hin v hv⟩,
      fun _ q hq hd => bb q hq (hok.baseSpans _ q hd (hworld q hq))⟩

theorem side_windings {env : Env K C} {eps : K} {sides : List (Side K × Nat)} {P : Side K → Side K → Prop} :
    ∀ (l : List (Side K × Nat)), (∀ x ∈ l, ∃ s', sideWinding env eps sides x = .ok s' ∧ P x.1 s') →
    ∃ r, sideWindings env eps sides l = .ok r ∧ (∀ s' ∈ r, ∃ x ∈ l, P x.1 s') ∧ ∀ x ∈ l, ∃ s' ∈ r, P x.1 s' := by
  intro l
  induction l with
  | nil => intro _; exact ⟨[], rfl, by simp, by simp⟩
  | cons x l ih =>
    intro h
    obtain ⟨s, e, hs⟩ := h x List.mem_cons_self
    obtain ⟨r, e', h1, h2⟩ := ih fun y hy => h y (List.mem_cons_of_mem _ hy)
    refine ⟨s :: r, ?_, ?_, ?_⟩
    · unfold sideWindings
      rw [e]
      show Outcome.bind (sideWindings env eps sides l) _ = _
      rw [e']
      rfl
    · intro s' hs'
      rcases List.mem_cons.1 hs' with rfl | hs'
      · exact ⟨x, by simp, hs⟩
      · obtain ⟨y, hy, hP⟩ := h1 s' hs'
        exact ⟨y, by simp [hy], hP⟩
    · intro y hy
      rcases List.mem_cons.1 hy with rfl | hy
      · exact ⟨s, by simp, hs⟩
      · obtain ⟨s', hs', hP⟩ := h2 y hy
        exact ⟨s', by simp [hs'], hP⟩

/-- C96: for every brush of half-spaces that lies in the world and has a point strictly inside: if no tolerance plays a
role (no vertex that appears is near a plane without being on it), `CreateBrushWindings` ends without undefined
behaviour. The brush it makes has the same points. If every side whose plane touches the brush gets a polygon, the
brush is closed: the polygons are convex, lie in their planes, are part of the brush and hold every point of its border,
and the bounds hold all of it. -/
theorem windings_close_partial {env : Env K C} (hok : PlanesOk env) (hw : 0 ≤ env.worldextent) {eps : K} (he : 0 ≤ eps)
    {b : Brush K C} (hbev : ∀ s ∈ b.sides, s.bevel = false)
    (hcore : ∃ c, ∀ s ∈ b.sides, (env.planes s.planenum).distTo c < 0)
    (hworld : ∀ q, Inside env b q → dot q q ≤ env.worldextent * env.worldextent)
    (hclean : ∀ x ∈ b.sides.zipIdx, NoneNearBy env eps x.2 b.sides.zipIdx (env.base (env.planes x.1.planenum))) :
    ∃ valid b', createWindings env eps b = .ok (valid, b') ∧ b'.contents = b.contents ∧
      (∀ q, Inside env b' q ↔ Inside env b q) ∧
      ((∀ s ∈ b'.sides, s.w = [] → ∀ q, Inside env b q → (env.planes s.planenum).distTo q < 0) → Closed env b') := by
  have hz : ∀ y ∈ b.sides.zipIdx, y.1 ∈ b.sides := by
    intro y hy
    obtain ⟨s, j⟩ := y
    exact List.mem_of_getElem? (List.mk_mem_zipIdx_iff_getElem?.1 hy)
  obtain ⟨r, e, h1, h2⟩ := side_windings (P := fun x s' => s'.planenum = x.planenum ∧ ConvexPoly s'.w ∧
      (∀ v ∈ s'.w, (env.planes x.planenum).distTo v = 0 ∧ Inside env b v) ∧
      (s'.w ≠ [] → ∀ q, Inside env b q → (env.planes x.planenum).distTo q = 0 → InHull s'.w q)) b.sides.zipIdx
      (fun x hx => side_winding hok hw he hbev hworld hx (hclean x hx))
  have hsame : ∀ q, (∀ s ∈ r, (env.planes s.planenum).distTo q ≤ 0) ↔ Inside env b q := by
    intro q
    constructor
    · intro h s hs
      obtain ⟨j, hj⟩ := List.mem_iff_getElem?.1 hs
      obtain ⟨s', hs', ep, _⟩ := h2 (s, j) (List.mk_mem_zipIdx_iff_getElem?.2 hj)
      simp only at ep
      rw [← ep]; exact h s' hs'
    · intro h s hs
      obtain ⟨x, hx, ep, _⟩ := h1 s hs
      rw [ep]; exact h x.1 (hz x hx)
  refine ⟨boundsOk env.worldextent (boundsOf env.huge r), { b with sides := r, bounds := boundsOf env.huge r }, ?_, rfl, hsame, ?_⟩
  · unfold createWindings
    rw [e]
    rfl
  · intro htouch
    -- the same brush with bounds around the world
    have hC : Closed env ({ b with sides := r, bounds := ⟨⟨-env.worldextent, -env.worldextent, -env.worldextent⟩,
        ⟨env.worldextent, env.worldextent, env.worldextent⟩⟩ } : Brush K C) := by
      constructor
      · intro s hs
        obtain ⟨x, _, _, h, _⟩ := h1 s hs
        exact h
      · intro s hs v hv
        obtain ⟨x, _, ep, _, h, _⟩ := h1 s hs
        rw [ep]; exact (h v hv).1
      · intro s hs v hv
        obtain ⟨x, _, ep, _, h, _⟩ := h1 s hs
        exact (hsame v).2 (h v hv).2
      · rintro q hq ⟨s, hs, hd⟩
        obtain ⟨x, _, ep, _, _, h⟩ := h1 s hs
        have hne : s.w ≠ [] := by
          intro he'
          have := htouch s hs he' q ((hsame q).1 hq)
          linarith
        exact ⟨s, hs, h hne q ((hsame q).1 hq) (by rw [← ep]; exact hd)⟩
      · obtain ⟨c, hc⟩ := hcore
        refine ⟨c, fun s hs => ?_⟩
        obtain ⟨x, hx, ep, _⟩ := h1 s hs
        rw [ep]; exact hc x.1 (hz x hx)
      · intro q hq
        exact hworld q ((hsame q).1 hq)
      · intro q hq
        obtain ⟨a1, a2, a3⟩ := abs_le_world hw (hworld q ((hsame q).1 hq))
        exact ⟨abs_le.1 a1, abs_le.1 a2, abs_le.1 a3⟩
    have hsol := closed_solid hC
    refine ⟨hC.convex, hC.own, hC.verts, hC.border, hC.core, hC.world, ?_⟩
    intro q hq
    apply box_points
    intro g
    obtain ⟨y, _, _, gy, s, hs, hh⟩ := solid_hull hsol (env.planes 0) (p := q) hq g
    obtain ⟨v, hv, ev⟩ := hh g
    exact ⟨v, mem_points.2 ⟨s, hs, hv⟩, le_trans gy ev⟩

end Verif.BrushBsp
