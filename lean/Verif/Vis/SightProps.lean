import Verif.Vis.SightLemmas

/-!
What vis keeps of what can be seen, in terms of straight lines through the portals of a map.

* C99: clipping a winding and the separating planes never cut off a point that a line reaches.
* C100: full vis marks every leaf that a line leads to, in every schedule.
* C101: fast vis marks every leaf that a line leads to, with the tolerance of the program.

Specification: `SightSpec`.
-/

namespace Verif.Vis

open Verif.Geom Verif.Geom.Spec

variable {Leaf Portal K : Type} [Field K] [LinearOrder K] [IsStrictOrderedRing K]
variable {G : Graph Leaf Portal} {geo : Geo Portal K} {cfg : Cfg K} {flat gap : K}

/-! ### C99 -/

/-- **C99 (clipping).** What is left of a convex winding after clipping by a plane contains all its inner points
in front of the plane; it is convex, lies in the same plane, and its sphere contains it.  Proved without a
tolerance; `keeps_false` shows what the tolerance cuts off. -/
theorem clip_keeps_partial {pl cut : Plane K} {w : SWind K} (hu : UnitNormal cut)
    (hw : ConvexIn pl.normal pl.dist w.pts) (hr : Reach0 w) :
    (∀ x, Inside pl w.pts x → 0 < cut.distTo x → ∃ w', clipStack 0 w cut = some w' ∧ Inside pl w'.pts x) ∧
    ∀ w', clipStack 0 w cut = some w' → ConvexIn pl.normal pl.dist w'.pts ∧ Reach0 w' :=
  ⟨fun _ hx hd => clipStack_inside hu ⟨hw, hr⟩ hx hd,
   fun _ h => ⟨(clipStack_ok hu ⟨hw, hr⟩ h).convex, (clipStack_ok hu ⟨hw, hr⟩ h).sphere⟩⟩

theorem clip_result {on : K} {w w' : SWind K} {cut : Plane K} (h : clipStack on w cut = some w') :
    w' = w ∨ (Part cut on w.pts w'.pts ∧ w'.origin = w.origin ∧ w'.radius = w.radius ∧ w'.pts.length ≤ maxFixed) := by
  unfold clipStack at h
  split at h
  · simp at h
  split at h
  · left; simpa using h.symm
  split at h
  · left; simpa using h.symm
  split at h
  · simp at h
  split at h
  · left; simpa using h.symm
  split at h
  · left; simpa using h.symm
  · rename_i first rest he
    simp only at h
    split at h
    · rename_i hlen
      right
      simp only [Option.some.injEq] at h
      subst h
      refine ⟨Or.inr ⟨first, rest, calcSides cut on w.pts, he, ?_, rfl⟩, rfl, rfl, hlen⟩
      rw [he]; exact infos_calcSides cut on first rest
    · left; simpa using h.symm

/-- **C99 (what is cut off).** For every tolerance: what is left of a winding is spanned by it and is not farther
than the tolerance behind the plane; only a result of more than 24 points is given up, and the winding is then
left as it is.  A winding that is dropped has no point farther than the tolerance in front of the plane. -/
theorem clip_cuts {on : K} (hon : 0 ≤ on) {cut : Plane K} {w : SWind K} (hu : UnitNormal cut) (hr : Reach0 w) :
    (∀ w', clipStack on w cut = some w' → (∀ v ∈ w'.pts, InHull w.pts v) ∧
      ((∀ v ∈ w'.pts, -on ≤ cut.distTo v) ∨ (w' = w ∧ maxFixed <
        (clipFrontLoop cut (w.pts.headD ⟨0, 0, 0⟩) w.pts (calcSides cut on w.pts)).length))) ∧
    (clipStack on w cut = none → ∀ v ∈ w.pts, cut.distTo v ≤ on) := by
  have self : ∀ v ∈ w.pts, InHull w.pts v := fun v hv g => ⟨v, hv, le_refl _⟩
  have notback : ∀ d : K, sideOf on d ≠ .back → -on ≤ d := by
    intro d hd
    by_contra hlt
    exact hd (by simp only [sideOf]; rw [if_neg (by linarith), if_pos (by linarith)])
  have notfront : ∀ d : K, sideOf on d ≠ .front → d ≤ on := by
    intro d hd
    by_contra hlt
    exact hd (by simp only [sideOf]; rw [if_pos (by linarith)])
  refine ⟨?_, ?_⟩
  · intro w' h
    refine ⟨?_, ?_⟩
    · rcases clip_result h with rfl | ⟨hp, _⟩
      · exact self
      · intro v hv g
        obtain ⟨a, ha, b, hb, t, t0, t1, rfl⟩ := part_onSeg hon hu hp v hv
        rw [dot_along]
        rcases le_total (dot g a) (dot g b) with hab | hab
        · exact ⟨b, hb, by nlinarith⟩
        · exact ⟨a, ha, by nlinarith⟩
    · unfold clipStack at h
      split at h
      · simp at h
      split at h
      · rename_i hfar
        simp only [Option.some.injEq] at h
        subst h
        left
        intro v hv
        have := hr cut.neg.normal (neg_unit hu) v hv
        simp only [Plane.neg, Plane.distTo, dot] at this hfar ⊢
        linarith
      split at h
      · rename_i hall
        simp only [Option.some.injEq] at h
        subst h
        left
        intro v hv
        refine notback _ ?_
        intro hb
        simp only [countSide] at hall
        rw [← List.countP_eq_length_filter] at hall
        have := List.countP_eq_length.1 hall v hv
        rw [hb] at this
        simp at this
      split at h
      · simp at h
      split at h
      · rename_i hz
        simp only [Option.some.injEq] at h
        subst h
        exact Or.inl fun v hv => notback _ (countSide_zero.1 hz v hv)
      split at h
      · rename_i he
        simp only [Option.some.injEq] at h
        subst h
        left
        intro v hv
        rw [he] at hv
        simp at hv
      · rename_i first rest he
        simp only at h
        split at h
        · simp only [Option.some.injEq] at h
          subst h
          left
          intro v hv
          have hp : Part cut on w.pts (clipFrontLoop cut first w.pts (calcSides cut on w.pts)) := by
            refine Or.inr ⟨first, rest, calcSides cut on w.pts, he, ?_, rfl⟩
            rw [he]; exact infos_calcSides cut on first rest
          exact (part_vertices hon hu hp v hv).1
        · rename_i hlen
          simp only [Option.some.injEq] at h
          right
          refine ⟨h.symm, ?_⟩
          have : w.pts.headD ⟨0, 0, 0⟩ = first := by rw [he]; rfl
          rw [this]
          exact not_le.1 hlen
  · intro h v hv
    unfold clipStack at h
    split at h
    · rename_i hlt
      have := hr cut.normal hu v hv
      simp only [Plane.distTo, dot] at this hlt ⊢
      linarith
    split at h
    · simp at h
    split at h
    · simp at h
    split at h
    · rename_i hz
      exact notfront _ (countSide_zero.1 hz v hv)
    split at h
    · simp at h
    split at h
    · simp at h
    · simp only at h
      split at h <;> simp at h

/-- **C99 (separating planes).** A line goes through an inner point of the source winding and through the pass
winding.  Every plane that `ClipToSeparators` finds between them has the line in front of it beyond the pass
winding, and behind it beyond the source: so clipping the target by it, turned around in the second case, never
cuts off the line. -/
theorem separator_keeps_partial (hc : CfgOk cfg) {srcPl : Plane K} {src pass : List (Vec K)} {sep : Plane K}
    {e : Vec K × Vec K} (he : e ∈ edges src) (hf : findSep cfg srcPl e pass = some sep)
    (hsrc : ConvexIn srcPl.normal srcPl.dist src) {a u : Vec K} {tA tB tC : K}
    (hA : Inside srcPl src (lineAt a u tA)) (hB : InHull pass (lineAt a u tB)) :
    ((tA < tB ∧ tB < tC) ∨ (tC < tB ∧ tB < tA) → 0 < sep.distTo (lineAt a u tC)) ∧
    ((tB < tA ∧ tA < tC) ∨ (tC < tA ∧ tA < tB) → 0 < (negPlane sep).distTo (lineAt a u tC)) := by
  have h := findSep_found he hf
  refine ⟨fun ht => found_line hc h hsrc hA hB false ?_, fun ht => found_line hc h hsrc hA hB true ?_⟩
  · simp only [Bool.false_eq_true, ↓reduceIte]
    rcases ht with ⟨h1, h2⟩ | ⟨h1, h2⟩
    · exact mul_pos (by linarith) (by linarith)
    · exact mul_pos_of_neg_of_neg (by linarith) (by linarith)
  · simp only [↓reduceIte]
    rcases ht with ⟨h1, h2⟩ | ⟨h1, h2⟩
    · exact mul_pos (by linarith) (by linarith)
    · exact mul_pos_of_neg_of_neg (by linarith) (by linarith)

/-! ### C100 -/

variable [DecidableEq Leaf] [DecidableEq Portal]

/-- **C100.** A line goes through the portals of a walk, one after the other.  When full vis is finished, after
any number of interruptions and under any schedule of its threads, the first portal of the walk sees the leaf
behind the last one.  Proved for comparisons without a tolerance. -/
theorem full_vis_sees_partial (hlen : G.leafs.length < 2 ^ 31 - 1) (hm : MapOk G geo) (hc : CfgOk cfg)
    (he : cfg.eq ≤ flat) (hv : cfg.visdist ≤ 0) {ps : Portal → PS Leaf}
    (hps : Saved G (geoTests cfg geo) (baseFront cfg geo) ps) {s : Sys Leaf Portal}
    (h : Steps G (geoTests cfg geo) (start G ps) s) (hfin : Finished s) (p : Portal) (c : List Portal)
    (hch : IsChain G (p :: c)) (hst : Stabbed geo flat 0 (p :: c)) :
    (s.ps p).vis (G.dest ((p :: c).getLast (by simp))) = true :=
  full_vis_conservative hlen (geoSight hm flat (le_refl 0)) (geoTests cfg geo)
    ⟨_, _, geoTests_sound hm (le_refl 0) hc he⟩ (baseFront cfg geo)
    (by
      have := baseFront_sound (cfg := cfg) (gap := 0) (flat := flat) hm hc.on.ge hc.on.le hv
      exact this)
    hps h hfin p _ ⟨c, hch, hst, rfl⟩

/-! ### C101 -/

/-- **C101.** A line goes through the portals of a walk, at every portal at least the tolerance away from the
planes of the others.  Fast vis, with that tolerance, marks the leaf behind the last portal for the first one. -/
theorem fast_vis_sees (hm : MapOk G geo) (h0 : 0 ≤ cfg.on) (hg : cfg.on ≤ gap) (hv : cfg.visdist ≤ 0) (p : Portal)
    (c : List Portal) (hch : IsChain G (p :: c)) (hst : Stabbed geo flat gap (p :: c)) :
    (fastPS (basePS G (baseFront cfg geo)) p).vis (G.dest ((p :: c).getLast (by simp))) = true :=
  fast_vis_conservative (geoSight hm flat (h0.trans hg)) (baseFront cfg geo) (baseFront_sound hm h0 hg hv) p _
    ⟨c, hch, hst, rfl⟩

omit [DecidableEq Leaf] [DecidableEq Portal] in
/-- **C101 (-visdist).** With a distance limit two portals that a line goes through may be kept apart only if all
points of one of them are farther away from the plane of the other. -/
theorem visdist_limit (hm : MapOk G geo) (h0 : 0 ≤ cfg.on) (hg : cfg.on ≤ gap) (p q : Portal) (m : List Portal)
    (hst : Stabbed geo flat gap (p :: m ++ [q])) (hcut : baseFront cfg geo p q = false) :
    0 < cfg.visdist ∧ ((∀ v ∈ (geo.wind q).pts, cfg.visdist < |(geo.plane p).distTo v|) ∨
      ∀ v ∈ (geo.wind p).pts, cfg.visdist < |(geo.plane q).distTo v|) := by
  obtain ⟨a, u, tp, tq, hp, hq, _, h1, h2⟩ := stab_ends hst
  by_contra hcon
  have : baseFront cfg geo p q = true := by
    refine baseFront_line hm h0 hg hp hq h1 h2 ?_
    by_cases hv : cfg.visdist ≤ 0
    · exact Or.inl hv
    · right
      rw [not_and] at hcon
      have hcon := hcon (not_le.1 hv)
      push Not at hcon
      exact hcon
  rw [this] at hcut
  exact absurd hcut (by simp)

end Verif.Vis
