import Verif.Surfaces.ConvexLemmas
import Mathlib.Tactic.LinearCombination
import Mathlib.Tactic.Linarith

/-! Lemmas about cutting a face by a plane. -/

namespace Verif.Surfaces

open Verif.Geom Verif.Geom.Spec Spec

set_option linter.unusedSectionVars false

variable {K : Type} [Field K] [LinearOrder K] [IsStrictOrderedRing K]

theorem ball_dist {pl : Plane K} (hu : UnitNormal pl) {o v : Vec K} {r : K} (hr : 0 ≤ r)
    (h : dot (subVec v o) (subVec v o) ≤ r * r) : |pl.distTo v - pl.distTo o| ≤ r := by
  have e : pl.distTo v - pl.distTo o = dot (subVec v o) pl.normal := by
    simp only [Plane.distTo, dot, subVec]; ring
  rw [e]
  refine abs_le_of_sq_le_sq' ?_ hr |> abs_le.2
  have cs : dot (subVec v o) pl.normal ^ 2 ≤ dot (subVec v o) (subVec v o) * dot pl.normal pl.normal := by
    have : dot (subVec v o) (subVec v o) * dot pl.normal pl.normal - dot (subVec v o) pl.normal ^ 2 =
        dot (meet (subVec v o) pl.normal) (meet (subVec v o) pl.normal) := by
      simp only [dot, meet]; ring
    have h2 : 0 ≤ dot (meet (subVec v o) pl.normal) (meet (subVec v o) pl.normal) := by
      simp only [dot]
      have := mul_self_nonneg (meet (subVec v o) pl.normal).x
      have := mul_self_nonneg (meet (subVec v o) pl.normal).y
      have := mul_self_nonneg (meet (subVec v o) pl.normal).z
      linarith
    linarith
  unfold UnitNormal at hu
  rw [hu, mul_one] at cs
  calc _ ≤ _ := cs
    _ ≤ r * r := h
    _ = r ^ 2 := by ring

theorem ball_along {o a b : Vec K} {R t : K} (h0 : 0 ≤ t) (h1 : t ≤ 1) (ha : dot (subVec a o) (subVec a o) ≤ R)
    (hb : dot (subVec b o) (subVec b o) ≤ R) : dot (subVec (along a b t) o) (subVec (along a b t) o) ≤ R := by
  have e : dot (subVec (along a b t) o) (subVec (along a b t) o) =
      (1 - t) * dot (subVec a o) (subVec a o) + t * dot (subVec b o) (subVec b o) -
        t * (1 - t) * dot (subVec a b) (subVec a b) := by
    simp only [dot, subVec, along]; ring
  have hd : 0 ≤ dot (subVec a b) (subVec a b) := by
    simp only [dot]
    have := mul_self_nonneg (subVec a b).x
    have := mul_self_nonneg (subVec a b).y
    have := mul_self_nonneg (subVec a b).z
    linarith
  have p := mul_nonneg (mul_nonneg h0 (sub_nonneg.2 h1)) hd
  have p1 := mul_le_mul_of_nonneg_left ha (sub_nonneg.2 h1)
  have p2 := mul_le_mul_of_nonneg_left hb h0
  rw [e]
  linarith

theorem ball_part {pl : Plane K} {eps : K} (he : 0 ≤ eps) (hu : UnitNormal pl) {f : Face K} (hb : BallOk f)
    {w : List (Vec K)} (h : Part pl eps f.w w) : BallOk (newFace f w) := by
  refine ⟨hb.1, ?_⟩
  intro v hv
  obtain ⟨a, ha, b, hb', t, h0, h1, rfl⟩ := part_onSeg he hu h v hv
  exact ball_along h0 h1 (hb.2 a ha) (hb.2 b hb')

/-- What is true of a face that is in front of a plane. -/
structure IsPart (pl : Plane K) (eps : K) (f g : Face K) : Prop where
  part : Part pl eps f.w g.w
  eq : g = newFace f g.w

theorem newFace_self (f : Face K) : f = newFace f f.w := rfl

theorem neg_unit' {pl : Plane K} (hu : UnitNormal pl) : UnitNormal pl.neg := by
  unfold UnitNormal at *
  simp only [Plane.neg, dot] at *
  linarith

theorem part_all {pl : Plane K} {eps : K} (he : 0 ≤ eps) {w : List (Vec K)} (h : ∀ v ∈ w, 0 ≤ pl.distTo v) :
    Part pl eps w w :=
  Or.inl ⟨rfl, fun v hv hb => by have := side_back hb; have := h v hv; linarith⟩

theorem split_front {eps : K} (he : 0 ≤ eps) {pl : Plane K} (hu : UnitNormal pl) {f g : Face K} (hb : BallOk f)
    (h : (splitFace eps f pl).1 = some g) : IsPart pl eps f g := by
  unfold splitFace at h
  split at h
  · rename_i h1
    simp only [Option.some.injEq] at h
    subst h
    refine ⟨part_all he fun v hv => ?_, rfl⟩
    have := abs_le.1 (ball_dist hu hb.1 (hb.2 v hv))
    linarith [this.1]
  · split at h
    · simp at h
    · split at h
      · rename_i hc
        simp only [Option.some.injEq] at h
        subst h
        refine ⟨?_, rfl⟩
        have := clip_front_part (w := f.w) (pl := pl) (eps := eps) (k := true) (by rw [hc])
        unfold clip at hc
        split at hc
        · rename_i hx
          exact Or.inl ⟨rfl, countSide_zero.1 hx.2.2⟩
        · split at hc
          · simp at hc
          · split at hc
            · rename_i hx
              exact Or.inl ⟨rfl, countSide_zero.1 hx⟩
            · split at hc <;> simp at hc
      · simp at h
      · rename_i hc
        simp only [Option.some.injEq] at h
        subst h
        exact ⟨clip_front_part (k := true) (by rw [hc]; rfl), rfl⟩
      · simp at h

theorem split_back {eps : K} (he : 0 ≤ eps) {pl : Plane K} (hu : UnitNormal pl) {f g : Face K} (hb : BallOk f)
    (h : (splitFace eps f pl).2 = some g) : IsPart pl.neg eps f g := by
  unfold splitFace at h
  split at h
  · simp at h
  · split at h
    · rename_i h1
      simp only [Option.some.injEq] at h
      subst h
      refine ⟨part_all he fun v hv => ?_, rfl⟩
      have := abs_le.1 (ball_dist hu hb.1 (hb.2 v hv))
      rw [neg_distTo]
      linarith [this.2]
    · split at h
      · simp at h
      · rename_i hc
        simp only [Option.some.injEq] at h
        subst h
        refine ⟨?_, rfl⟩
        have := clip_back_part he (w := f.w) (pl := pl) (k := true) (by rw [hc])
        unfold clip at hc
        split at hc
        · simp at hc
        · split at hc
          · rename_i hx
            exact Or.inl ⟨rfl, fun p hp => not_front_neg he (countSide_zero.1 hx p hp)⟩
          · split at hc
            · simp at hc
            · split at hc <;> simp at hc
      · rename_i hc
        simp only [Option.some.injEq] at h
        subst h
        exact ⟨clip_back_part he (k := true) (by rw [hc]; rfl), rfl⟩
      · simp at h

theorem clip_none_front {eps : K} {pl : Plane K} {w : List (Vec K)} (h : (clip pl eps true w).1 = none) :
    ∀ v ∈ w, pl.distTo v ≤ eps := by
  have h2 : countSide pl eps w .front = 0 := by
    unfold clip at h
    split at h
    · simp at h
    · split at h
      · assumption
      · split at h
        · simp at h
        · split at h <;> simp at h
  intro v hv
  by_contra hv'
  exact countSide_zero.1 h2 v hv (by unfold sideOf; rw [if_pos (by linarith)])

theorem clip_none_back {eps : K} {pl : Plane K} {w : List (Vec K)} (he : 0 ≤ eps) (h : (clip pl eps true w).2 = none) :
    ∀ v ∈ w, -eps ≤ pl.distTo v := by
  have h2 : countSide pl eps w .back = 0 := by
    unfold clip at h
    split at h
    · rename_i hx; exact hx.2.2
    · split at h
      · simp at h
      · split at h
        · assumption
        · split at h <;> simp at h
  intro v hv
  by_contra hv'
  exact countSide_zero.1 h2 v hv (by unfold sideOf; rw [if_neg (by linarith), if_pos (by linarith)])

theorem split_no_front {eps : K} (he : 0 ≤ eps) {pl : Plane K} (hu : UnitNormal pl) {f : Face K} (hb : BallOk f)
    (h : (splitFace eps f pl).1 = none) :
    (∀ v ∈ f.w, pl.distTo v ≤ eps) ∧ (splitFace eps f pl).2 = some f := by
  unfold splitFace at h ⊢
  by_cases h1 : f.radius < pl.distTo f.origin
  · rw [if_pos h1] at h
    simp at h
  · rw [if_neg h1] at h ⊢
    by_cases h2 : pl.distTo f.origin < -f.radius
    · rw [if_pos h2]
      refine ⟨fun v hv => ?_, rfl⟩
      have := abs_le.1 (ball_dist hu hb.1 (hb.2 v hv))
      linarith [this.2]
    · rw [if_neg h2] at h ⊢
      cases hc : clip pl eps true f.w with
      | mk a b =>
        rw [hc] at h
        cases a with
        | some a => cases b <;> simp at h
        | none =>
          refine ⟨clip_none_front (by rw [hc]), ?_⟩
          cases b with
          | some b => rfl
          | none =>
            exfalso
            unfold clip at hc
            split at hc
            · simp at hc
            · split at hc
              · simp at hc
              · split at hc
                · simp at hc
                · split at hc <;> simp at hc

theorem split_no_back {eps : K} (he : 0 ≤ eps) {pl : Plane K} (hu : UnitNormal pl) {f : Face K} (hb : BallOk f)
    (h : (splitFace eps f pl).2 = none) :
    (∀ v ∈ f.w, -eps ≤ pl.distTo v) ∧ (splitFace eps f pl).1 = some f := by
  unfold splitFace at h ⊢
  by_cases h1 : f.radius < pl.distTo f.origin
  · rw [if_pos h1]
    refine ⟨fun v hv => ?_, rfl⟩
    have := abs_le.1 (ball_dist hu hb.1 (hb.2 v hv))
    linarith [this.1]
  · rw [if_neg h1] at h ⊢
    by_cases h2 : pl.distTo f.origin < -f.radius
    · rw [if_pos h2] at h
      simp at h
    · rw [if_neg h2] at h ⊢
      cases hc : clip pl eps true f.w with
      | mk a b =>
        rw [hc] at h
        cases a with
        | some a =>
          cases b with
          | none => exact ⟨clip_none_back he (by rw [hc]), rfl⟩
          | some b => simp at h
        | none =>
          cases b with
          | some b => simp at h
          | none =>
            exfalso
            unfold clip at hc
            split at hc
            · simp at hc
            · split at hc
              · simp at hc
              · split at hc
                · simp at hc
                · split at hc <;> simp at hc

/-- No point is lost, but near the plane. -/
theorem split_covers {n : Vec K} {k eps : K} (he : 0 ≤ eps) {pl : Plane K} (hu : UnitNormal pl) {f : Face K} (hb : BallOk f)
    (hw : ConvexRing n k f.w) {q : Vec K} (hq : InHull f.w q) (hd : eps = 0 ∨ eps < |pl.distTo q|) :
    ∃ g, ((splitFace eps f pl).1 = some g ∧ 0 ≤ pl.distTo q ∨ (splitFace eps f pl).2 = some g ∧ pl.distTo q ≤ 0) ∧
      InHull g.w q := by
  have hd' : eps < pl.distTo q ∨ eps < -pl.distTo q ∨ (eps = 0 ∧ pl.distTo q = 0) := by
    rcases hd with hd | hd
    · rcases lt_trichotomy (pl.distTo q) 0 with h | h | h
      · exact Or.inr (Or.inl (by linarith))
      · exact Or.inr (Or.inr ⟨hd, h⟩)
      · exact Or.inl (by linarith)
    · rcases lt_abs.1 hd with h | h
      · exact Or.inl h
      · exact Or.inr (Or.inl h)
  clear hd
  rcases hd' with hd | hd | ⟨rfl, hd⟩
  · cases hs : (splitFace eps f pl).1 with
    | none =>
      have := inHull_le hq (split_no_front he hu hb hs).1
      linarith
    | some g => exact ⟨g, Or.inl ⟨rfl, by linarith⟩, part_hull_eps he hu hw (split_front he hu hb hs).part hq hd⟩
  · cases hs : (splitFace eps f pl).2 with
    | none =>
      have := inHull_ge hq (split_no_back he hu hb hs).1
      linarith
    | some g =>
      exact ⟨g, Or.inr ⟨rfl, by linarith⟩, part_hull_eps he (neg_unit' hu) hw (split_back he hu hb hs).part hq
        (by rw [neg_distTo]; exact hd)⟩
  · cases hs : (splitFace 0 f pl).1 with
    | none => exact ⟨f, Or.inr ⟨(split_no_front he hu hb hs).2, by rw [hd]⟩, hq⟩
    | some g =>
      exact ⟨g, Or.inl ⟨rfl, by rw [hd]⟩, part_hull hu (ring_convex hw) (split_front he hu hb hs).part hq (by rw [hd])⟩

theorem isPart_partOf {eps : K} (he : 0 ≤ eps) {pl : Plane K} (hu : UnitNormal pl) {f g : Face K}
    (h : IsPart pl eps f g) : PartOf f g := by
  refine ⟨?_, ?_, ?_, ?_, fun q hq => part_in_hull he hu h.part hq⟩ <;> rw [h.eq] <;> rfl

theorem isPart_ball {eps : K} (he : 0 ≤ eps) {pl : Plane K} (hu : UnitNormal pl) {f g : Face K} (hb : BallOk f)
    (h : IsPart pl eps f g) : BallOk g := by
  rw [h.eq]; exact ball_part he hu hb h.part

theorem partOf_trans {f g h : Face K} (a : PartOf f g) (b : PartOf g h) : PartOf f h :=
  ⟨b.1.trans a.1, b.2.1.trans a.2.1, b.2.2.1.trans a.2.2.1, b.2.2.2.1.trans a.2.2.2.1,
    fun q hq => a.2.2.2.2 q (b.2.2.2.2 q hq)⟩

theorem partOf_refl (f : Face K) : PartOf f f := ⟨rfl, rfl, rfl, rfl, fun _ h => h⟩

theorem mem_hull {w : List (Vec K)} {v : Vec K} (h : v ∈ w) : InHull w v := fun _ => ⟨v, h, le_refl _⟩

/-- `UpdateFaceSphere` puts a ball around the face. -/
theorem updateSphere_ball {sqrt : K → K} (hs : IsSqrt sqrt) (f : Face K) : BallOk (updateSphere sqrt f) := by
  have key : ∀ (o : Vec K) (l : List (Vec K)) (r : K), 0 ≤ r →
      r ≤ l.foldl (fun r v => max r (dot (subVec v o) (subVec v o))) r ∧
      ∀ v ∈ l, dot (subVec v o) (subVec v o) ≤ l.foldl (fun r v => max r (dot (subVec v o) (subVec v o))) r := by
    intro o l
    induction l with
    | nil => intro r _; exact ⟨le_refl _, by simp⟩
    | cons a l ih =>
      intro r hr
      rw [List.foldl_cons]
      obtain ⟨h1, h2⟩ := ih (max r (dot (subVec a o) (subVec a o))) (le_trans hr (le_max_left _ _))
      refine ⟨le_trans (le_max_left _ _) h1, ?_⟩
      intro v hv
      rcases List.mem_cons.1 hv with rfl | hv
      · exact le_trans (le_max_right _ _) h1
      · exact h2 v hv
  unfold updateSphere BallOk
  simp only
  obtain ⟨h1, h2⟩ := key _ f.w 0 (le_refl 0)
  obtain ⟨a, b⟩ := hs _ h1
  exact ⟨a, fun v hv => by rw [b]; exact h2 v hv⟩

end Verif.Surfaces
