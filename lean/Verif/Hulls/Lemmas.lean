import Verif.Hulls.Spec
import Verif.BrushBsp.WindingProps

/-! Lemmas: the polygons that `CalculateBrushBounds` makes close the brush. -/

namespace Verif.Hulls

open Geom Geom.Spec BrushBsp BrushBsp.Spec Hulls.Spec

variable {K : Type} [Field K] [LinearOrder K] [IsStrictOrderedRing K]

theorem opposite_dist (p : Plane K) (q : Vec K) : (opposite p).distTo q = -p.distTo q := by
  simp only [opposite, Plane.distTo, dot]; ring

theorem opposite_unit {p : Plane K} (h : UnitNormal p) : UnitNormal (opposite p) := by
  simp only [UnitNormal, opposite, dot] at *; linarith

/-- Clipping by the other faces keeps what is in the body. -/
theorem clipOthers_chain {i : Nat} {T : Vec K → Prop} :
    ∀ (l : List (Face K × Nat)) (w m : List (Vec K)), (∀ x ∈ l, x.1.bevel = false) → (∀ x ∈ l, UnitNormal x.1.plane) →
    (∀ x ∈ l, ∀ q, T q → x.1.plane.distTo q ≤ 0) → ConvexPoly w → clipOthers i l w = some m →
    ConvexPoly m ∧ (∀ q, T q → InHull w q → InHull m q) ∧ (∀ v ∈ m, InHull w v) ∧
      ∀ x ∈ l, x.2 ≠ i → ∀ v ∈ m, x.1.plane.distTo v ≤ 0 := by
  intro l
  induction l with
  | nil =>
    intro w m _ _ _ hc h
    simp only [clipOthers, Option.some.injEq] at h
    subst h
    exact ⟨hc, fun _ _ h => h, fun v hv g => ⟨v, hv, le_refl _⟩, by simp⟩
  | cons x l ih =>
    intro w m hb hu hT hc h
    obtain ⟨s, j⟩ := x
    have hb' := fun x hx => hb x (List.mem_cons_of_mem _ hx)
    have hu' := fun x hx => hu x (List.mem_cons_of_mem _ hx)
    have hT' := fun x hx => hT x (List.mem_cons_of_mem _ hx)
    by_cases hij : i = j
    · simp only [clipOthers, if_pos (Or.inl hij)] at h
      obtain ⟨a, b, c, d⟩ := ih w m hb' hu' hT' hc h
      refine ⟨a, b, c, ?_⟩
      intro x hx hne
      rcases List.mem_cons.1 hx with rfl | hx
      · exact absurd hij.symm hne
      · exact d x hx hne
    · have hbs : s.bevel = false := hb (s, j) List.mem_cons_self
      simp only [clipOthers] at h
      rw [if_neg (by rintro (h | h); exact hij h; rw [hbs] at h; cases h)] at h
      cases hcb : clipFront (opposite s.plane) 0 false w with
      | none => rw [hcb] at h; cases h
      | some w' =>
        rw [hcb] at h
        have hpart : Part (opposite s.plane) 0 w w' := by
          apply clipFront_exact (le_refl 0) _ hcb
          intro v hv h0
          exact abs_eq_zero.1 (le_antisymm h0 (abs_nonneg _))
        have hun := opposite_unit (hu (s, j) List.mem_cons_self)
        obtain ⟨n, k, hcw⟩ := hc
        obtain ⟨a, b, c, d⟩ := ih w' m hb' hu' hT' ⟨n, k, part_convex hun hcw hpart⟩ h
        refine ⟨a, ?_, ?_, ?_⟩
        · intro q hq hh
          apply b q hq
          apply part_hull hun hcw hpart hh
          rw [opposite_dist]
          linarith [hT (s, j) List.mem_cons_self q hq]
        · intro v hv g
          obtain ⟨x, hx, e⟩ := c v hv g
          obtain ⟨p, hp, q, hq, t, h0, h1, rfl⟩ := part_onSeg (le_refl 0) hun hpart x hx
          rw [dot_along] at e
          rcases le_total (dot g p) (dot g q) with hle | hle
          · refine ⟨q, hq, ?_⟩
            have := mul_le_mul_of_nonneg_left hle (show 0 ≤ 1 - t by linarith)
            linarith
          · refine ⟨p, hp, ?_⟩
            have := mul_le_mul_of_nonneg_left hle h0
            linarith
        · intro x hx hne v hv
          rcases List.mem_cons.1 hx with rfl | hx
          · apply inHull_le (c v hv)
            intro y hy
            have := (part_vertices (le_refl 0) hun hpart y hy).1
            rw [opposite_dist] at this
            simp only
            linarith
          · exact d x hx hne v hv

theorem mem_zip {fs : List (Face K)} {y : Face K × Nat} (hy : y ∈ fs.zipIdx) : y.1 ∈ fs := by
  obtain ⟨s, j⟩ := y
  exact List.mem_of_getElem? (List.mk_mem_zipIdx_iff_getElem?.1 hy)

/-- The polygon of one face. -/
theorem faceWinding_ok {env : Env K} {r : K} {fs : List (Face K)} (hbase : ∀ f ∈ fs, ConvexPoly (env.base f.plane) ∧ (∀ v ∈ env.base f.plane, f.plane.distTo v = 0) ∧
      ∀ q, f.plane.distTo q = 0 → dot q q ≤ r → InHull (env.base f.plane) q)
    (hb : ∀ f ∈ fs, f.bevel = false ∧ f.w = []) (hu : ∀ f ∈ fs, UnitNormal f.plane)
    (hworld : ∀ q, Spec.Inside fs q → dot q q ≤ r) {x : Face K × Nat} (hx : x ∈ fs.zipIdx) :
    (faceWinding env fs.zipIdx x).w = (clipOthers x.2 fs.zipIdx (env.base x.1.plane)).getD [] ∧
    (faceWinding env fs.zipIdx x) = { x.1 with w := (faceWinding env fs.zipIdx x).w } ∧
    ConvexPoly (faceWinding env fs.zipIdx x).w ∧
    (∀ v ∈ (faceWinding env fs.zipIdx x).w, x.1.plane.distTo v = 0 ∧ Spec.Inside fs v) ∧
    ((faceWinding env fs.zipIdx x).w ≠ [] → ∀ q, Spec.Inside fs q → x.1.plane.distTo q = 0 →
      InHull (faceWinding env fs.zipIdx x).w q) := by
  have hx1 := mem_zip hx
  unfold faceWinding
  cases hc : clipOthers x.2 fs.zipIdx (env.base x.1.plane) with
  | none =>
    have e := (hb _ hx1).2
    simp only [Option.getD_none, e, true_and]
    refine ⟨by cases hf : x.1; rw [hf] at e; simp only at e ⊢; rw [e], ?_, by simp, by simp⟩
    exact ⟨⟨0, 0, 1⟩, 0, by simp [dot], by simp, by simp⟩
  | some w =>
    obtain ⟨b1, b2, b3⟩ := hbase _ hx1
    obtain ⟨h1, h2, h3, h4⟩ := clipOthers_chain (T := Spec.Inside fs) fs.zipIdx _ _ (fun y hy => (hb _ (mem_zip hy)).1)
      (fun y hy => hu _ (mem_zip hy)) (fun y hy q hq => hq _ (mem_zip hy)) b1 hc
    have hon : ∀ v ∈ w, x.1.plane.distTo v = 0 := fun v hv =>
      le_antisymm (inHull_le (h3 v hv) fun y hy => le_of_eq (b2 y hy))
        (inHull_ge (h3 v hv) fun y hy => ge_of_eq (b2 y hy))
    refine ⟨rfl, rfl, h1, fun v hv => ⟨hon v hv, ?_⟩, fun _ q hq hd => h2 q hq (b3 q hd (hworld q hq))⟩
    intro f hf
    obtain ⟨j, hj⟩ := List.mem_iff_getElem?.1 hf
    have hm : (f, j) ∈ fs.zipIdx := List.mk_mem_zipIdx_iff_getElem?.2 hj
    by_cases hne : j = x.2
    · have : f = x.1 := by
        obtain ⟨s, i⟩ := x
        have := List.mk_mem_zipIdx_iff_getElem?.1 hx
        simp only at hne this
        rw [← hne, hj] at this
        exact Option.some.inj this
      rw [this]
      exact le_of_eq (hon v hv)
    · exact h4 (f, j) hm hne v hv

/-- The faces keep their planes. -/
theorem calc_inside {env : Env K} {fs : List (Face K)} {q : Vec K} :
    Spec.Inside (calculateBounds env fs).1 q ↔ Spec.Inside fs q := by
  have hp : ∀ x : Face K × Nat, (faceWinding env fs.zipIdx x).plane = x.1.plane := by
    intro x; unfold faceWinding; split <;> rfl
  unfold Spec.Inside calculateBounds
  simp only [List.mem_map, forall_exists_index, and_imp]
  constructor
  · intro h f hf
    obtain ⟨j, hj⟩ := List.mem_iff_getElem?.1 hf
    have := h _ (f, j) (List.mk_mem_zipIdx_iff_getElem?.2 hj) rfl
    rwa [hp] at this
  · rintro h _ x hx rfl
    rw [hp]
    exact h _ (mem_zip hx)

/-- The polygons close the body. -/
theorem calc_closed {env : Env K} {r : K} {fs : List (Face K)} (hbase : ∀ f ∈ fs, ConvexPoly (env.base f.plane) ∧ (∀ v ∈ env.base f.plane, f.plane.distTo v = 0) ∧
      ∀ q, f.plane.distTo q = 0 → dot q q ≤ r → InHull (env.base f.plane) q)
    (hb : ∀ f ∈ fs, f.bevel = false ∧ f.w = []) (hu : ∀ f ∈ fs, UnitNormal f.plane)
    (hcore : ∃ c, ∀ f ∈ fs, f.plane.distTo c < 0) (hworld : ∀ q, Spec.Inside fs q → dot q q ≤ r)
    (hdeg : ∀ f ∈ (calculateBounds env fs).1, f.w = [] → ∀ q, Spec.Inside fs q → f.plane.distTo q < 0) :
    Spec.Closed (calculateBounds env fs).1 := by
  have hp : ∀ x : Face K × Nat, (faceWinding env fs.zipIdx x).plane = x.1.plane := by
    intro x; unfold faceWinding; split <;> rfl
  have hmem : ∀ f, f ∈ (calculateBounds env fs).1 ↔ ∃ x ∈ fs.zipIdx, faceWinding env fs.zipIdx x = f := by
    intro f; simp [calculateBounds]
  have key := fun x hx => faceWinding_ok hbase hb hu hworld (x := x) hx
  refine ⟨?_, ?_, ?_, ?_, ?_, ?_, ⟨r, fun q hq => hworld q (calc_inside.1 hq)⟩⟩
  · intro f hf
    obtain ⟨x, hx, rfl⟩ := (hmem f).1 hf
    rw [hp]; exact hu _ (mem_zip hx)
  · intro f hf
    obtain ⟨x, hx, rfl⟩ := (hmem f).1 hf
    exact (key x hx).2.2.1
  · intro f hf v hv
    obtain ⟨x, hx, rfl⟩ := (hmem f).1 hf
    rw [hp]; exact ((key x hx).2.2.2.1 v hv).1
  · intro f hf v hv
    obtain ⟨x, hx, rfl⟩ := (hmem f).1 hf
    exact calc_inside.2 ((key x hx).2.2.2.1 v hv).2
  · intro f hf q hq hd
    have hq' := calc_inside.1 hq
    by_cases he : f.w = []
    · exact absurd hd (ne_of_lt (hdeg f hf he q hq'))
    · obtain ⟨x, hx, rfl⟩ := (hmem f).1 hf
      rw [hp] at hd
      exact (key x hx).2.2.2.2 he q hq' hd
  · obtain ⟨c, hc⟩ := hcore
    refine ⟨c, ?_⟩
    intro f hf
    obtain ⟨x, hx, rfl⟩ := (hmem f).1 hf
    rw [hp]; exact hc _ (mem_zip hx)

/-- The bounds are those of the corners. -/
theorem calc_bounds {env : Env K} {fs : List (Face K)} (hb : ∀ f ∈ fs, f.w = []) :
    (calculateBounds env fs).2 = (corners (calculateBounds env fs).1).foldl BrushBsp.expand
      ⟨⟨env.huge, env.huge, env.huge⟩, ⟨-env.huge, -env.huge, -env.huge⟩⟩ := by
  unfold calculateBounds corners
  simp only
  congr 1
  rw [List.flatMap_map]
  apply List.flatMap_congr
  intro x hx
  unfold faceWinding
  cases clipOthers x.2 fs.zipIdx (env.base x.1.plane) with
  | none => simp [hb _ (mem_zip hx)]
  | some w => rfl

/-- The first plane on the way from a point of a bounded body. -/
theorem exit {fs : List (Face K)} {r : K} (hr : ∀ q, Spec.Inside fs q → dot q q ≤ r) {p u : Vec K}
    (hp : Spec.Inside fs p) (hu : 0 < dot u u) :
    ∃ t, 0 ≤ t ∧ Spec.Inside fs (go p u t) ∧ ∃ f ∈ fs, f.plane.distTo (go p u t) = 0 := by
  have key : ∀ (l : List (Face K)), (∀ s ∈ l, s.plane.distTo p ≤ 0) →
      (∀ s ∈ l, dot u s.plane.normal ≤ 0) ∨
      ∃ t, 0 ≤ t ∧ (∀ s ∈ l, s.plane.distTo (go p u t) ≤ 0) ∧ ∃ s ∈ l, s.plane.distTo (go p u t) = 0 := by
    intro l
    induction l with
    | nil => intro _; left; simp
    | cons a l ih =>
      intro hl
      have ha := hl a List.mem_cons_self
      have hl' := fun s hs => hl s (List.mem_cons_of_mem _ hs)
      rcases lt_or_ge 0 (dot u a.plane.normal) with hpos | hneg
      · set ta := -a.plane.distTo p / dot u a.plane.normal with hta
        have ta0 : 0 ≤ ta := div_nonneg (by linarith) (le_of_lt hpos)
        have hmul : ta * dot u a.plane.normal = -a.plane.distTo p := div_mul_cancel₀ _ (ne_of_gt hpos)
        rcases ih hl' with hall | ⟨t, ht, hall, s, hs, e⟩
        · right
          refine ⟨ta, ta0, ?_, a, by simp, by rw [dist_go]; linarith⟩
          intro s hs
          rcases List.mem_cons.1 hs with rfl | hs
          · rw [dist_go]; linarith
          · rw [dist_go]
            have := mul_nonpos_of_nonneg_of_nonpos ta0 (hall s hs)
            linarith [hl' s hs]
        · right
          rcases le_total t ta with hle | hle
          · refine ⟨t, ht, ?_, s, by simp [hs], e⟩
            intro s' hs'
            rcases List.mem_cons.1 hs' with rfl | hs'
            · rw [dist_go]
              have := mul_le_mul_of_nonneg_right hle (le_of_lt hpos)
              linarith
            · exact hall s' hs'
          · refine ⟨ta, ta0, ?_, a, by simp, by rw [dist_go]; linarith⟩
            intro s' hs'
            rcases List.mem_cons.1 hs' with rfl | hs'
            · rw [dist_go]; linarith
            · have h1 := hall s' hs'
              rw [dist_go] at h1 ⊢
              rcases le_total 0 (dot u s'.plane.normal) with h2 | h2
              · have := mul_le_mul_of_nonneg_right hle h2
                linarith
              · have := mul_nonpos_of_nonneg_of_nonpos ta0 h2
                linarith [hl' s' hs']
      · rcases ih hl' with hall | ⟨t, ht, hall, s, hs, e⟩
        · left
          intro s hs
          rcases List.mem_cons.1 hs with rfl | hs
          · exact hneg
          · exact hall s hs
        · right
          refine ⟨t, ht, ?_, s, by simp [hs], e⟩
          intro s' hs'
          rcases List.mem_cons.1 hs' with rfl | hs'
          · rw [dist_go]
            have := mul_nonpos_of_nonneg_of_nonpos ht hneg
            linarith
          · exact hall s' hs'
  rcases key fs hp with hall | h
  · exfalso
    -- the body is not bounded
    have hin : ∀ t, 0 ≤ t → Spec.Inside fs (go p u t) := by
      intro t ht f hf
      rw [dist_go]
      have := mul_nonpos_of_nonneg_of_nonpos ht (hall f hf)
      linarith [hp f hf]
    have h0 : 0 ≤ dot p p := by
      simp only [dot]
      have := mul_self_nonneg p.x; have := mul_self_nonneg p.y; have := mul_self_nonneg p.z
      linarith
    have hr0 : 0 ≤ r := le_trans h0 (hr p hp)
    set c := |dot p u| with hc
    have hc0 : 0 ≤ c := abs_nonneg _
    have hcp : -c ≤ dot p u := neg_abs_le _
    set t := (r + 2 * c + 1) / dot u u + 1 with ht
    have ht1 : 1 ≤ t := by
      have : 0 ≤ (r + 2 * c + 1) / dot u u := div_nonneg (by linarith) (le_of_lt hu)
      linarith
    have hb := hr _ (hin t (by linarith))
    have e : dot (go p u t) (go p u t) = dot p p + 2 * t * dot p u + t * t * dot u u := by
      simp only [dot, go]; ring
    have hm : t * dot u u = r + 2 * c + 1 + dot u u := by
      rw [ht]; field_simp
    have h3 : t * (t * dot u u + 2 * dot p u) ≤ r := by
      rw [e] at hb; linarith [hb, h0]
    have h4 : r + 1 ≤ t * dot u u + 2 * dot p u := by rw [hm]; linarith
    have h5 : r + 1 ≤ t * (t * dot u u + 2 * dot p u) := by
      have := mul_le_mul ht1 h4 (by linarith) (by linarith)
      linarith
    linarith
  · exact h

/-- The corners span the body. -/
theorem closed_span {fs : List (Face K)} (h : Spec.Closed fs) {q : Vec K} (hq : Spec.Inside fs q) :
    InHull (corners fs) q := by
  obtain ⟨r, hr⟩ := h.bounded
  intro g
  have hmem : ∀ f ∈ fs, ∀ v ∈ f.w, v ∈ corners fs := fun f hf v hv => List.mem_flatMap.2 ⟨f, hf, hv⟩
  by_cases hg : g = ⟨0, 0, 0⟩
  · subst hg
    obtain ⟨t, _, hin, f, hf, hd⟩ := exit hr hq (u := ⟨1, 0, 0⟩) (by simp [dot])
    obtain ⟨v, hv, _⟩ := h.border f hf _ hin hd ⟨1, 0, 0⟩
    exact ⟨v, hmem f hf v hv, by simp [dot]⟩
  · have hg' := sq_pos hg
    obtain ⟨t, ht, hin, f, hf, hd⟩ := exit hr hq hg'
    obtain ⟨v, hv, e⟩ := h.border f hf _ hin hd g
    refine ⟨v, hmem f hf v hv, le_trans ?_ e⟩
    rw [dot_go]
    have := mul_nonneg ht (le_of_lt hg')
    linarith

/-- Bounds hold what they are made of, and all that it spans. -/
theorem fold_box {l : List (Vec K)} {b : Bounds K} {p : Vec K} (h : InHull l p) : InBox (l.foldl BrushBsp.expand b) p := by
  have key : ∀ (l : List (Vec K)) (b : Bounds K) (v : Vec K), (v ∈ l ∨ InBox b v) → InBox (l.foldl BrushBsp.expand b) v := by
    intro l
    induction l with
    | nil => intro b v hv; simpa using hv
    | cons a l ih =>
      intro b v hv
      simp only [List.foldl_cons]
      apply ih
      rcases hv with hv | hv
      · rcases List.mem_cons.1 hv with rfl | hv
        · right
          simp [InBox, BrushBsp.expand]
        · exact Or.inl hv
      · right
        simp only [InBox, BrushBsp.expand, min_le_iff, le_max_iff] at *
        tauto
  have hb : ∀ v ∈ l, InBox (l.foldl BrushBsp.expand b) v := fun v hv => key _ _ v (Or.inl hv)
  have get : ∀ g : Vec K, ∃ v, InBox (l.foldl BrushBsp.expand b) v ∧ dot g p ≤ dot g v := by
    intro g
    obtain ⟨v, hv, e⟩ := h g
    exact ⟨v, hb v hv, e⟩
  generalize l.foldl BrushBsp.expand b = bb at get
  obtain ⟨v1, a1, b1⟩ := get ⟨1, 0, 0⟩
  obtain ⟨v2, a2, b2⟩ := get ⟨-1, 0, 0⟩
  obtain ⟨v3, a3, b3⟩ := get ⟨0, 1, 0⟩
  obtain ⟨v4, a4, b4⟩ := get ⟨0, -1, 0⟩
  obtain ⟨v5, a5, b5⟩ := get ⟨0, 0, 1⟩
  obtain ⟨v6, a6, b6⟩ := get ⟨0, 0, -1⟩
  simp only [dot, InBox] at *
  refine ⟨⟨?_, ?_⟩, ⟨?_, ?_⟩, ?_, ?_⟩ <;> linarith

/-- The least and the greatest numbers of bounds are met, if there are points and the start is huge. -/
theorem fold_tight (axis : Nat) : ∀ (l : List (Vec K)) (b : Bounds K),
    (comp axis (l.foldl BrushBsp.expand b).maxs = comp axis b.maxs ∨
      ∃ v ∈ l, comp axis (l.foldl BrushBsp.expand b).maxs = comp axis v) ∧
    (comp axis (l.foldl BrushBsp.expand b).mins = comp axis b.mins ∨
      ∃ v ∈ l, comp axis (l.foldl BrushBsp.expand b).mins = comp axis v) := by
  have step : ∀ (b : Bounds K) (v : Vec K), (comp axis (BrushBsp.expand b v).maxs = max (comp axis b.maxs) (comp axis v)) ∧
      (comp axis (BrushBsp.expand b v).mins = min (comp axis b.mins) (comp axis v)) := by
    intro b v
    unfold comp BrushBsp.expand
    split
    · exact ⟨rfl, rfl⟩
    · split <;> exact ⟨rfl, rfl⟩
  intro l
  induction l with
  | nil => intro b; simp
  | cons a l ih =>
    intro b
    simp only [List.foldl_cons]
    obtain ⟨h1, h2⟩ := ih (BrushBsp.expand b a)
    obtain ⟨s1, s2⟩ := step b a
    constructor
    · rcases h1 with h | ⟨v, hv, e⟩
      · rw [h, s1]
        rcases max_choice (comp axis b.maxs) (comp axis a) with e | e
        · left; exact e
        · right; exact ⟨a, by simp, e⟩
      · right; exact ⟨v, by simp [hv], e⟩
    · rcases h2 with h | ⟨v, hv, e⟩
      · rw [h, s2]
        rcases min_choice (comp axis b.mins) (comp axis a) with e | e
        · left; exact e
        · right; exact ⟨a, by simp, e⟩
      · right; exact ⟨v, by simp [hv], e⟩

end Verif.Hulls
