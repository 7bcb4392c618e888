import Verif.BrushBsp.Solid

/-! The polygon of a cut and the halves of a brush. -/

namespace Verif.BrushBsp

open Geom Geom.Spec Spec

set_option linter.unusedSectionVars false

variable {K C : Type} [Field K] [LinearOrder K] [IsStrictOrderedRing K]

theorem maxFront_spec (pl : Plane K) (ps : List (Vec K)) :
    (∀ p ∈ ps, pl.distTo p ≤ maxFront pl ps) ∧ (maxFront pl ps = 0 ∨ ∃ p ∈ ps, pl.distTo p = maxFront pl ps) := by
  have key : ∀ (ps : List (Vec K)) (m : K), 0 ≤ m →
      let r := ps.foldl (fun m p => if pl.distTo p > 0 ∧ pl.distTo p > m then pl.distTo p else m) m
      m ≤ r ∧ (∀ p ∈ ps, pl.distTo p ≤ r) ∧ (r = m ∨ ∃ p ∈ ps, pl.distTo p = r) := by
    intro ps
    induction ps with
    | nil => intro m _; simp
    | cons a ps ih =>
      intro m hm
      simp only [List.foldl_cons]
      by_cases hc : pl.distTo a > 0 ∧ pl.distTo a > m
      · rw [if_pos hc]
        obtain ⟨h1, h2, h3⟩ := ih (pl.distTo a) (le_of_lt hc.1)
        refine ⟨by linarith [hc.2], ?_, ?_⟩
        · intro p hp
          rcases List.mem_cons.1 hp with rfl | hp
          · exact h1
          · exact h2 p hp
        · rcases h3 with h3 | ⟨p, hp, e⟩
          · exact Or.inr ⟨a, by simp, h3.symm⟩
          · exact Or.inr ⟨p, by simp [hp], e⟩
      · rw [if_neg hc]
        obtain ⟨h1, h2, h3⟩ := ih m hm
        refine ⟨h1, ?_, ?_⟩
        · intro p hp
          rcases List.mem_cons.1 hp with rfl | hp
          · by_cases h0 : pl.distTo p > 0
            · have : ¬ pl.distTo p > m := fun h => hc ⟨h0, h⟩
              linarith
            · linarith
          · exact h2 p hp
        · rcases h3 with h3 | ⟨p, hp, e⟩
          · exact Or.inl h3
          · exact Or.inr ⟨p, by simp [hp], e⟩
  obtain ⟨_, h2, h3⟩ := key ps 0 (le_refl 0)
  exact ⟨h2, h3⟩

theorem maxBack_neg (pl : Plane K) (ps : List (Vec K)) : maxBack pl ps = -maxFront pl.neg ps := by
  have key : ∀ (ps : List (Vec K)) (m : K),
      ps.foldl (fun m p => if pl.distTo p < 0 ∧ pl.distTo p < m then pl.distTo p else m) m =
      -(ps.foldl (fun m p => if pl.neg.distTo p > 0 ∧ pl.neg.distTo p > m then pl.neg.distTo p else m) (-m)) := by
    intro ps
    induction ps with
    | nil => intro m; simp
    | cons a ps ih =>
      intro m
      simp only [List.foldl_cons]
      rw [ih]
      congr 2
      simp only [neg_distTo]
      by_cases hc : pl.distTo a < 0 ∧ pl.distTo a < m
      · rw [if_pos hc, if_pos ⟨by linarith [hc.1], by linarith [hc.2]⟩]
      · rw [if_neg hc, if_neg]
        rintro ⟨h1, h2⟩
        exact hc ⟨by linarith, by linarith⟩
  have := key ps 0
  simpa [maxBack, maxFront] using this

/-- With no vertex near the plane, the tolerance does not matter. -/
theorem clipBack_exact {pl : Plane K} {eps : K} (he : 0 ≤ eps) {w w' : List (Vec K)}
    (hn : ∀ v ∈ w, |pl.distTo v| ≤ eps → pl.distTo v = 0) (h : clipBack pl eps false w = some w') : Part pl.neg 0 w w' := by
  have hs : ∀ v ∈ w, sideOf eps (pl.distTo v) = sideOf 0 (pl.distTo v) := by
    intro v hv
    have := hn v hv
    unfold sideOf
    by_cases h1 : |pl.distTo v| ≤ eps
    · rw [this h1]
      rw [if_neg (by linarith), if_neg (by linarith), if_neg (by simp), if_neg (by simp)]
    · rw [not_le] at h1
      rcases lt_abs.1 h1 with h2 | h2
      · rw [if_pos h2, if_pos (by linarith)]
      · rw [if_neg (by linarith), if_pos (by linarith), if_neg (by linarith), if_pos (by linarith)]
  have hc : ∀ s, countSide pl eps w s = countSide pl 0 w s := by
    intro s
    unfold countSide
    congr 1
    apply List.filter_congr
    intro v hv
    rw [hs v hv]
  have hcalc : calcSides pl eps w = calcSides pl 0 w := by
    unfold calcSides
    have : (w.map fun p => (pl.distTo p, sideOf eps (pl.distTo p))) = w.map fun p => (pl.distTo p, sideOf 0 (pl.distTo p)) := by
      apply List.map_congr_left
      intro v hv
      rw [hs v hv]
    simp only [this]
  have e : clipBack pl 0 false w = some w' := by
    rw [← h]
    unfold clipBack
    simp only [hc, hcalc]
  apply clip_back_part (le_refl 0) (k := false)
  rw [clip_front_back_agree, e]

/-- Clipping by all sides keeps what is in the set. -/
theorem cut_chain {env : Env K C} (hu : ∀ n, UnitNormal (env.planes n)) {T : Vec K → Prop} :
    ∀ (sides : List (Side K)) (w m : List (Vec K)), (∀ s ∈ sides, ∀ q, T q → (env.planes s.planenum).distTo q ≤ 0) →
    NoneNear env sides w → ConvexPoly w →
    sides.foldl (fun w s => w.bind fun w => clipBack (env.planes s.planenum) onEps false w) (some w) = some m →
    ConvexPoly m ∧ (∀ q, T q → InHull w q → InHull m q) ∧ (∀ v ∈ m, InHull w v) ∧
      ∀ s ∈ sides, ∀ v ∈ m, (env.planes s.planenum).distTo v ≤ 0 := by
  intro sides
  induction sides with
  | nil =>
    intro w m _ _ hc h
    simp only [List.foldl_nil, Option.some.injEq] at h
    subst h
    exact ⟨hc, fun _ _ h => h, fun v hv g => ⟨v, hv, le_refl _⟩, by simp⟩
  | cons s l ih =>
    intro w m hT hn hc h
    simp only [List.foldl_cons, Option.bind_some] at h
    cases hcb : clipBack (env.planes s.planenum) onEps false w with
    | none =>
      exfalso
      rw [hcb] at h
      have hnone : ∀ l : List (Side K),
          l.foldl (fun w s => w.bind fun w => clipBack (env.planes s.planenum) onEps false w) (none : Option (List (Vec K))) = none := by
        intro l; induction l with
        | nil => rfl
        | cons a l ih => simpa using ih
      rw [hnone] at h
      cases h
    | some w' =>
      rw [hcb] at h
      have hpart : Part (env.planes s.planenum).neg 0 w w' := clipBack_exact (by norm_num [onEps]) hn.1 hcb
      have hun := neg_unit (hu s.planenum)
      obtain ⟨n, k, hcw⟩ := hc
      obtain ⟨a, b, c, d⟩ := ih w' m (fun s hs => hT s (List.mem_cons_of_mem _ hs)) (hn.2 w' hcb)
        ⟨n, k, part_convex hun hcw hpart⟩ h
      refine ⟨a, ?_, ?_, ?_⟩
      · intro q hq hh
        apply b q hq
        apply part_hull hun hcw hpart hh
        rw [neg_distTo]
        linarith [hT s List.mem_cons_self q hq]
      · intro v hv g
        obtain ⟨x, hx, e⟩ := c v hv g
        obtain ⟨p, hp, q, hq, t, h0, h1, rfl⟩ := part_onSeg (le_refl 0) hun hpart x hx
        rw [dot_along] at e
        rcases le_total (dot g p) (dot g q) with hle | hle
        · refine ⟨q, hq, ?_⟩
          have := mul_le_mul_of_nonneg_left hle (show 0 ≤ 1 - t by linarith)
          linarith
        · refine ⟨p, hp, ?_⟩
          have := mul_le_mul_of_nonneg_left hle h0
          linarith
      · intro s' hs' v hv
        rcases List.mem_cons.1 hs' with rfl | hs'
        · apply inHull_le (c v hv)
          intro x hx
          have := (part_vertices (le_refl 0) hun hpart x hx).1
          rw [neg_distTo] at this
          linarith
        · exact d s' hs' v hv

/-- The polygon of the cut is the section of the solid. -/
theorem cut_polygon {env : Env K C} (hok : PlanesOk env) {T : Vec K → Prop} {sides : List (Side K)} {n : Nat}
    {m : List (Vec K)} (h : Solid env T sides) (hn : NoneNear env sides (env.base (env.planes n)))
    (hm : cutPolygon env (env.planes n) sides = some m) :
    ConvexPoly m ∧ (∀ v ∈ m, (env.planes n).distTo v = 0 ∧ T v) ∧ ∀ q, T q → (env.planes n).distTo q = 0 → InHull m q := by
  obtain ⟨a, b, c, d⟩ := cut_chain hok.unit sides _ m h.inside hn (hok.baseConvex n) hm
  refine ⟨a, ?_, fun q hq hd => b q hq (hok.baseSpans n q hd (h.world q hq))⟩
  intro v hv
  refine ⟨le_antisymm ?_ ?_, solid_region h (fun s hs _ => d s hs v hv)⟩
  · exact inHull_le (c v hv) (fun x hx => le_of_eq (hok.baseOn n x hx))
  · exact inHull_ge (c v hv) (fun x hx => le_of_eq (hok.baseOn n x hx).symm)

theorem front_sides {pl : Plane K} (sides : List (Side K)) :
    (∀ s' ∈ frontSides pl sides, ∃ s ∈ sides, s'.planenum = s.planenum ∧ s'.onnode = s.onnode ∧ Part pl 0 s.w s'.w) ∧
    ∀ s ∈ sides, (∃ v ∈ s.w, 0 < pl.distTo v) →
      ∃ s' ∈ frontSides pl sides, s'.planenum = s.planenum ∧ Part pl 0 s.w s'.w := by
  constructor
  · intro s' hs'
    simp only [frontSides, List.mem_filterMap, Option.map_eq_some_iff] at hs'
    obtain ⟨s, hs, w, hw, rfl⟩ := hs'
    exact ⟨s, hs, rfl, rfl, clip_front_part hw⟩
  · rintro s hs ⟨v, hv, hd⟩
    cases hc : (clip pl 0 false s.w).1 with
    | none =>
      exfalso
      apply clip_front_none hc v hv
      rw [side_zero, if_pos hd]
    | some w =>
      refine ⟨{ s with w := w }, ?_, rfl, clip_front_part hc⟩
      simp only [frontSides, List.mem_filterMap, Option.map_eq_some_iff]
      exact ⟨s, hs, w, hc, rfl⟩

theorem back_sides {pl : Plane K} (sides : List (Side K)) :
    (∀ s' ∈ backSides pl sides, ∃ s ∈ sides, s'.planenum = s.planenum ∧ s'.onnode = s.onnode ∧ Part pl.neg 0 s.w s'.w) ∧
    ∀ s ∈ sides, (∃ v ∈ s.w, 0 < pl.neg.distTo v) →
      ∃ s' ∈ backSides pl sides, s'.planenum = s.planenum ∧ Part pl.neg 0 s.w s'.w := by
  constructor
  · intro s' hs'
    simp only [backSides, List.mem_filterMap, Option.map_eq_some_iff] at hs'
    obtain ⟨s, hs, w, hw, rfl⟩ := hs'
    exact ⟨s, hs, rfl, rfl, clip_back_part (le_refl 0) hw⟩
  · rintro s hs ⟨v, hv, hd⟩
    rw [neg_distTo] at hd
    cases hc : (clip pl 0 false s.w).2 with
    | none =>
      exfalso
      apply clip_back_none hc v hv
      rw [side_zero, if_neg (by linarith), if_pos (by linarith)]
    | some w =>
      refine ⟨{ s with w := w }, ?_, rfl, clip_back_part (le_refl 0) hc⟩
      simp only [backSides, List.mem_filterMap, Option.map_eq_some_iff]
      exact ⟨s, hs, w, hc, rfl⟩

theorem keepHalf_some {env : Env K C} {b x : Brush K C} (h : keepHalf env b = some x) : x = b := by
  unfold keepHalf at h
  split at h
  · cases h
  · simpa using h.symm

/-- What a clean cut does. -/
theorem split_cases {env : Env K C} {n : Nat} {b : Brush K C} (h : CleanCut env n b) :
    ((∀ s ∈ b.sides, ∀ v ∈ s.w, (env.planes n).distTo v < 1 / 10) ∧ splitBrush env n b = (none, some b)) ∨
    ((∀ s ∈ b.sides, ∀ v ∈ s.w, -(1 / 10) < (env.planes n).distTo v) ∧ splitBrush env n b = (some b, none)) ∨
    ((∃ s ∈ b.sides, ∃ v ∈ s.w, 1 / 10 ≤ (env.planes n).distTo v) ∧
      (∃ s ∈ b.sides, ∃ v ∈ s.w, (env.planes n).distTo v ≤ -(1 / 10)) ∧
      NoneNear env b.sides (env.base (env.planes n)) ∧
      ∃ m, cutPolygon env (env.planes n) b.sides = some m ∧
        splitBrush env n b =
        (some { b with sides := frontSides (env.planes n) b.sides ++ [cutSide (flipNum n) (Geom.flip m)],
                       bounds := boundsOf env.huge (frontSides (env.planes n) b.sides) },
         some { b with sides := backSides (env.planes n) b.sides ++ [cutSide n m],
                       bounds := boundsOf env.huge (backSides (env.planes n) b.sides) })) := by
  have ten : (0 : K) < 1 / 10 := by norm_num
  obtain ⟨f1, f2⟩ := maxFront_spec (env.planes n) (points b.sides)
  obtain ⟨b1, b2⟩ := maxFront_spec (env.planes n).neg (points b.sides)
  have hmb := maxBack_neg (env.planes n) (points b.sides)
  by_cases hf : maxFront (env.planes n) (points b.sides) < 1 / 10
  · left
    refine ⟨fun s hs v hv => lt_of_le_of_lt (f1 v (mem_points.2 ⟨s, hs, hv⟩)) hf, ?_⟩
    unfold splitBrush
    simp only
    rw [if_pos hf]
  · by_cases hb : maxBack (env.planes n) (points b.sides) > -(1 / 10)
    · right; left
      refine ⟨fun s hs v hv => ?_, ?_⟩
      · have := b1 v (mem_points.2 ⟨s, hs, hv⟩)
        rw [neg_distTo] at this
        linarith
      · unfold splitBrush
        simp only
        rw [if_neg hf, if_pos hb]
    · right; right
      have hF : ∃ s ∈ b.sides, ∃ v ∈ s.w, 1 / 10 ≤ (env.planes n).distTo v := by
        rcases f2 with f2 | ⟨p, hp, e⟩
        · exfalso; rw [f2] at hf; exact hf ten
        · obtain ⟨s, hs, hv⟩ := mem_points.1 hp
          exact ⟨s, hs, p, hv, by rw [e]; exact not_lt.1 hf⟩
      have hB : ∃ s ∈ b.sides, ∃ v ∈ s.w, (env.planes n).distTo v ≤ -(1 / 10) := by
        rw [hmb] at hb
        rcases b2 with b2 | ⟨p, hp, e⟩
        · exfalso; rw [b2] at hb; apply hb; linarith
        · obtain ⟨s, hs, hv⟩ := mem_points.1 hp
          rw [neg_distTo] at e
          exact ⟨s, hs, p, hv, by linarith [not_lt.1 hb]⟩
      obtain ⟨i1, i2, hn⟩ := h hF hB
      refine ⟨hF, hB, hn, ?_⟩
      unfold splitBrush at i1 i2 ⊢
      simp only at i1 i2 ⊢
      rw [if_neg hf, if_neg hb] at i1 i2 ⊢
      cases hm : cutPolygon env (env.planes n) b.sides with
      | none =>
        exfalso
        rw [hm] at i1 i2
        simp only at i1 i2
        split at i1 <;> simp_all
      | some m =>
        refine ⟨m, rfl, ?_⟩
        rw [hm] at i1 i2
        simp only at i1 i2 ⊢
        by_cases ht : tiny m = true
        · exfalso
          rw [if_pos ht] at i1 i2
          split at i1 <;> simp_all
        · rw [if_neg ht] at i1 i2 ⊢
          split at i1
          · cases i1
          · rename_i h1
            split at i1
            · rename_i h2
              rw [if_neg h1, if_pos h2] at i2
              cases i2
            · rename_i h2
              split at i1
              · cases i1
              · rename_i h3
                rw [if_neg h1, if_neg h2, if_neg h3] at i2 ⊢
                obtain ⟨x, hx⟩ := Option.isSome_iff_exists.1 i1
                obtain ⟨y, hy⟩ := Option.isSome_iff_exists.1 i2
                simp only at hx hy
                rw [hx, hy, keepHalf_some hx, keepHalf_some hy]

/-- The bounds of points hold everything that they span. -/
theorem box_points {huge : K} {sides : List (Side K)} {p : Vec K} (h : InHull (points sides) p) :
    InBox (boundsOf huge sides) p := by
  have key : ∀ (l : List (Vec K)) (b : Bounds K) (v : Vec K), (v ∈ l ∨ InBox b v) → InBox (l.foldl expand b) v := by
    intro l
    induction l with
    | nil => intro b v hv; simpa using hv
    | cons a l ih =>
      intro b v hv
      simp only [List.foldl_cons]
      apply ih
      rcases hv with hv | hv
      · rcases List.mem_cons.1 hv with rfl | hv
        · right
          simp [InBox, expand]
        · exact Or.inl hv
      · right
        simp only [InBox, expand, min_le_iff, le_max_iff] at *
        tauto
  have hb : ∀ v ∈ points sides, InBox (boundsOf huge sides) v := fun v hv => key _ _ v (Or.inl hv)
  have get : ∀ g : Vec K, ∃ v, InBox (boundsOf huge sides) v ∧ dot g p ≤ dot g v := by
    intro g
    obtain ⟨v, hv, e⟩ := h g
    exact ⟨v, hb v hv, e⟩
  obtain ⟨v1, i1, e1⟩ := get ⟨1, 0, 0⟩
  obtain ⟨v2, i2, e2⟩ := get ⟨-1, 0, 0⟩
  obtain ⟨v3, i3, e3⟩ := get ⟨0, 1, 0⟩
  obtain ⟨v4, i4, e4⟩ := get ⟨0, -1, 0⟩
  obtain ⟨v5, i5, e5⟩ := get ⟨0, 0, 1⟩
  obtain ⟨v6, i6, e6⟩ := get ⟨0, 0, -1⟩
  simp only [dot] at e1 e2 e3 e4 e5 e6
  obtain ⟨⟨_, a1⟩, _⟩ := i1
  obtain ⟨⟨a2, _⟩, _⟩ := i2
  obtain ⟨_, ⟨_, a3⟩, _⟩ := i3
  obtain ⟨_, ⟨a4, _⟩, _⟩ := i4
  obtain ⟨_, _, ⟨_, a5⟩⟩ := i5
  obtain ⟨_, _, ⟨a6, _⟩⟩ := i6
  exact ⟨⟨by linarith, by linarith⟩, ⟨by linarith, by linarith⟩, ⟨by linarith, by linarith⟩⟩

/-- The front half of a brush. -/
theorem front_half {env : Env K C} (hok : PlanesOk env) {T : Vec K → Prop} {sides : List (Side K)} {n : Nat}
    {m : List (Vec K)} (h : Solid env T sides) (hn : NoneNear env sides (env.base (env.planes n)))
    (hm : cutPolygon env (env.planes n) sides = some m) (hv : ∃ s ∈ sides, ∃ v ∈ s.w, 1 / 10 ≤ (env.planes n).distTo v) :
    Solid env (fun q => T q ∧ 0 ≤ (env.planes n).distTo q)
      (frontSides (env.planes n) sides ++ [cutSide (flipNum n) (Geom.flip m)]) ∧
    ∀ p, T p → 0 < (env.planes n).distTo p → InBox (boundsOf env.huge (frontSides (env.planes n) sides)) p := by
  obtain ⟨c1, c2, c3⟩ := cut_polygon hok h hn hm
  obtain ⟨k1, k2⟩ := front_sides (pl := env.planes n) sides
  have ten : (0 : K) < 1 / 10 := by norm_num
  constructor
  · apply half_solid (hok.unit n) h
    · intro s' hs'
      rcases List.mem_append.1 hs' with hs' | hs'
      · obtain ⟨s, hs, e, _, hp⟩ := k1 s' hs'
        exact Or.inl ⟨s, hs, e, hp⟩
      · rw [List.mem_singleton] at hs'
        subst hs'
        refine Or.inr ⟨hok.flip n, convex_flip c1, fun v hv => c2 v ?_⟩
        simpa [cutSide, Geom.flip] using hv
    · intro s hs hx
      obtain ⟨s', hs', a⟩ := k2 s hs hx
      exact ⟨s', List.mem_append_left _ hs', a⟩
    · exact ⟨_, List.mem_append_right _ (List.mem_singleton.2 rfl), fun q hq hd => hull_flip (c3 q hq hd)⟩
    · obtain ⟨s, hs, v, hv, hd⟩ := hv
      exact ⟨v, h.verts s hs v hv, by linarith⟩
  · intro p hp hd
    exact box_points (half_hull (hok.unit n) h k2 hp hd)

/-- The back half of a brush. -/
theorem back_half {env : Env K C} (hok : PlanesOk env) {T : Vec K → Prop} {sides : List (Side K)} {n : Nat}
    {m : List (Vec K)} (h : Solid env T sides) (hn : NoneNear env sides (env.base (env.planes n)))
    (hm : cutPolygon env (env.planes n) sides = some m) (hv : ∃ s ∈ sides, ∃ v ∈ s.w, (env.planes n).distTo v ≤ -(1 / 10)) :
    Solid env (fun q => T q ∧ 0 ≤ (env.planes n).neg.distTo q)
      (backSides (env.planes n) sides ++ [cutSide n m]) ∧
    ∀ p, T p → (env.planes n).distTo p < 0 → InBox (boundsOf env.huge (backSides (env.planes n) sides)) p := by
  obtain ⟨c1, c2, c3⟩ := cut_polygon hok h hn hm
  obtain ⟨k1, k2⟩ := back_sides (pl := env.planes n) sides
  have ten : (0 : K) < 1 / 10 := by norm_num
  have hun := neg_unit (hok.unit n)
  constructor
  · apply half_solid hun h
    · intro s' hs'
      rcases List.mem_append.1 hs' with hs' | hs'
      · obtain ⟨s, hs, e, _, hp⟩ := k1 s' hs'
        exact Or.inl ⟨s, hs, e, hp⟩
      · rw [List.mem_singleton] at hs'
        subst hs'
        refine Or.inr ⟨fun q => by rw [neg_distTo]; simp [cutSide], c1, fun v hv => ?_⟩
        rw [neg_distTo, (c2 v hv).1]
        exact ⟨neg_zero, (c2 v hv).2⟩
    · intro s hs hx
      obtain ⟨s', hs', a⟩ := k2 s hs hx
      exact ⟨s', List.mem_append_left _ hs', a⟩
    · exact ⟨_, List.mem_append_right _ (List.mem_singleton.2 rfl), fun q hq hd => c3 q hq (by rw [neg_distTo] at hd; linarith)⟩
    · obtain ⟨s, hs, v, hv, hd⟩ := hv
      exact ⟨v, h.verts s hs v hv, by rw [neg_distTo]; linarith⟩
  · intro p hp hd
    exact box_points (half_hull hun h k2 hp (by rw [neg_distTo]; linarith))

end Verif.BrushBsp
