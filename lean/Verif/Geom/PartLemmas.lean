import Verif.Geom.ClipLemmas

/-! Lemmas about the parts that clipping returns. -/

namespace Verif.Geom

open Spec

set_option linter.unusedSectionVars false

variable {K : Type} [Field K] [LinearOrder K] [IsStrictOrderedRing K]

/-- The part of a polygon in front of a plane. -/
def Part (pl : Plane K) (eps : K) (w f : List (Vec K)) : Prop :=
  (f = w ∧ ∀ p ∈ w, sideOf eps (pl.distTo p) ≠ .back) ∨
  ∃ first rest ss, w = first :: rest ∧ Infos pl eps first w ss ∧ f = clipFrontLoop pl first w ss

theorem countSide_zero {pl : Plane K} {eps : K} {w : List (Vec K)} {s : Side} :
    countSide pl eps w s = 0 ↔ ∀ p ∈ w, sideOf eps (pl.distTo p) ≠ s := by
  simp [countSide]

theorem clip_front_part {pl : Plane K} {eps : K} {k : Bool} {w f : List (Vec K)}
    (h : (clip pl eps k w).1 = some f) : Part pl eps w f := by
  unfold clip at h
  split at h
  · rename_i hc
    simp only [Option.some.injEq] at h
    exact Or.inl ⟨h.symm, countSide_zero.1 hc.2.2⟩
  · split at h
    · simp at h
    · split at h
      · rename_i hc
        simp only [Option.some.injEq] at h
        exact Or.inl ⟨h.symm, countSide_zero.1 hc⟩
      · split at h
        · simp only [Option.some.injEq] at h
          exact Or.inl ⟨h.symm, by simp⟩
        · rename_i first rest _ _ _
          simp only [clipLoop_eq, Option.some.injEq] at h
          exact Or.inr ⟨first, rest, _, rfl, infos_calcSides pl eps first rest, h.symm⟩

theorem not_front_neg {pl : Plane K} {eps : K} (he : 0 ≤ eps) {p : Vec K} (h : sideOf eps (pl.distTo p) ≠ .front) :
    sideOf eps (pl.neg.distTo p) ≠ .back := by
  rw [neg_distTo, side_neg he]
  cases hs : sideOf eps (pl.distTo p) <;> simp_all

theorem clip_back_part {pl : Plane K} {eps : K} (he : 0 ≤ eps) {k : Bool} {w b : List (Vec K)}
    (h : (clip pl eps k w).2 = some b) : Part pl.neg eps w b := by
  unfold clip at h
  split at h
  · simp at h
  · split at h
    · rename_i hc
      simp only [Option.some.injEq] at h
      exact Or.inl ⟨h.symm, fun p hp => not_front_neg he (countSide_zero.1 hc p hp)⟩
    · split at h
      · simp at h
      · split at h
        · simp only [Option.some.injEq] at h
          exact Or.inl ⟨h.symm, by simp⟩
        · rename_i first rest _ _ _
          simp only [clipLoop_eq, Option.some.injEq] at h
          obtain ⟨ss', hi, e⟩ := backLoop_eq he (infos_calcSides pl eps first rest)
          exact Or.inr ⟨first, rest, ss', rfl, hi, by rw [← h, e]⟩

theorem clip_front_none {pl : Plane K} {eps : K} {k : Bool} {w : List (Vec K)}
    (h : (clip pl eps k w).1 = none) : ∀ p ∈ w, sideOf eps (pl.distTo p) ≠ .front := by
  unfold clip at h
  split at h
  · simp at h
  · split at h
    · rename_i hc; exact countSide_zero.1 hc
    · split at h
      · simp at h
      · split at h <;> simp at h

theorem clip_back_none {pl : Plane K} {eps : K} {k : Bool} {w : List (Vec K)}
    (h : (clip pl eps k w).2 = none) : ∀ p ∈ w, sideOf eps (pl.distTo p) ≠ .back := by
  unfold clip at h
  split at h
  · rename_i hc; exact countSide_zero.1 hc.2.2
  · split at h
    · simp at h
    · split at h
      · rename_i hc; exact countSide_zero.1 hc
      · split at h <;> simp at h

theorem frontLoop_headOk {pl : Plane K} {eps : K} (he : 0 ≤ eps) (hu : UnitNormal pl) {first : Vec K} {ps : List (Vec K)}
    {ss : List (K × Side)} (h : Infos pl eps first ps ss) :
    ∀ d l, clipFrontLoop pl first ps ss = d :: l → HeadOk pl eps (ps.head?.getD first) d := by
  induction h with
  | last => simp [clipFrontLoop]
  | @cons p ps ss h ih =>
    intro d l hdl
    rcases frontLoop_cases (p := p) he hu h with ⟨h1, _, ho⟩ | ⟨h1, _, m, hm, ho⟩ | ⟨h1, h2, ho⟩ | ⟨h1, h2, m, hm, ho⟩
    · rw [ho] at hdl
      obtain ⟨rfl, _⟩ := List.cons.inj hdl
      exact ⟨fun _ => rfl, fun hb => absurd hb h1⟩
    · rw [ho] at hdl
      obtain ⟨rfl, _⟩ := List.cons.inj hdl
      exact ⟨fun _ => rfl, fun hb => by simp [h1] at hb⟩
    · rw [ho] at hdl
      have hd := ih d l hdl
      refine ⟨fun hb => absurd h1 hb, fun _ => ?_⟩
      by_cases hq : sideOf eps (pl.distTo (ps.head?.getD first)) = .back
      · exact hd.2 hq
      · rw [hd.1 hq]
        cases hs : sideOf eps (pl.distTo (ps.head?.getD first)) with
        | on => exact side_on hs
        | front => exact absurd hs h2
        | back => exact absurd hs hq
    · rw [ho] at hdl
      obtain ⟨rfl, _⟩ := List.cons.inj hdl
      refine ⟨fun hb => absurd h1 hb, fun _ => ?_⟩
      rw [hm.on]
      exact ⟨by linarith, he⟩

theorem part_vertices {pl : Plane K} {eps : K} (he : 0 ≤ eps) (hu : UnitNormal pl) {w f : List (Vec K)}
    (h : Part pl eps w f) :
    ∀ v ∈ f, -eps ≤ pl.distTo v ∧ (v ∈ w ∨ ∃ o ∈ edges w, IsSplit pl o.1 o.2 v) := by
  rcases h with ⟨rfl, hw⟩ | ⟨first, rest, ss, rfl, hi, rfl⟩
  · intro v hv
    refine ⟨?_, Or.inl hv⟩
    cases hs : sideOf eps (pl.distTo v) with
    | on => exact (side_on hs).1
    | front => have := side_front hs; linarith
    | back => exact absurd hs (hw v hv)
  · exact frontLoop_vertices he hu hi

theorem part_keeps {pl : Plane K} {eps : K} (he : 0 ≤ eps) (hu : UnitNormal pl) {w f : List (Vec K)}
    (h : Part pl eps w f) : ∀ p ∈ w, sideOf eps (pl.distTo p) ≠ .back → p ∈ f := by
  rcases h with ⟨rfl, hw⟩ | ⟨first, rest, ss, rfl, hi, rfl⟩
  · intro p hp _; exact hp
  · exact frontLoop_keeps he hu hi

theorem mem_pairs {α : Type} {l : List α} {e : α × α} (h : e ∈ pairs l) : e.1 ∈ l ∧ e.2 ∈ l := by
  induction l with
  | nil => simp [pairs] at h
  | cons a l ih =>
    cases l with
    | nil => simp [pairs] at h
    | cons b l =>
      rw [pairs_cons_mem] at h
      rcases h with rfl | h
      · simp
      · obtain ⟨h1, h2⟩ := ih h
        exact ⟨List.mem_cons_of_mem _ h1, List.mem_cons_of_mem _ h2⟩

theorem mem_edges {α : Type} {w : List α} {e : α × α} (h : e ∈ edges w) : e.1 ∈ w ∧ e.2 ∈ w := by
  unfold edges at h
  split at h
  · simp at h
  · obtain ⟨h1, h2⟩ := mem_pairs h
    simp only [List.cons_append, List.mem_cons, List.mem_append, List.not_mem_nil, or_false] at h1 h2 ⊢
    tauto

theorem part_edges {pl : Plane K} {eps : K} (he : 0 ≤ eps) (hu : UnitNormal pl) {w f : List (Vec K)}
    (h : Part pl eps w f) : ∀ e ∈ edges f, FrontEdge pl eps (edges w) e := by
  rcases h with ⟨rfl, hw⟩ | ⟨first, rest, ss, rfl, hi, rfl⟩
  · intro e hee
    exact Or.inl ⟨e, hee, onSeg_left _ _, onSeg_right _ _⟩
  · intro e hee
    unfold edges at hee
    split at hee
    · simp at hee
    · rename_i d l heq
      have hd := frontLoop_headOk he hu hi d l heq
      simp only [List.head?_cons, Option.getD_some] at hd
      exact frontLoop_edges he hu hi d hd e hee

theorem part_covers {pl : Plane K} {eps : K} (he : 0 ≤ eps) (hu : UnitNormal pl) {w f : List (Vec K)}
    (h : Part pl eps w f) (o : Vec K × Vec K) (ho : o ∈ edges w) (x : Vec K) (hx : OnSeg x o.1 o.2)
    (hd : eps < pl.distTo x) : ∃ e ∈ edges f, OnSeg x e.1 e.2 := by
  rcases h with ⟨rfl, hw⟩ | ⟨first, rest, ss, rfl, hi, rfl⟩
  · exact ⟨o, ho, hx⟩
  · cases heq : clipFrontLoop pl first (first :: rest) ss with
    | nil =>
      exfalso
      have hk := frontLoop_keeps he hu hi
      rw [heq] at hk
      have hb : ∀ p ∈ first :: rest, pl.distTo p ≤ eps := by
        intro p hp
        have : sideOf eps (pl.distTo p) = .back := by
          by_contra hne
          exact absurd (hk p hp hne) (by simp)
        have := side_back this
        linarith
      obtain ⟨m1, m2⟩ := mem_edges ho
      have := onSeg_dist_le hx (hb _ m1) (hb _ m2)
      linarith
    | cons d l =>
      have hh := frontLoop_headOk he hu hi d l heq
      simp only [List.head?_cons, Option.getD_some] at hh
      have := frontLoop_covers he hu hi d hh o ho x hx hd
      rw [heq] at this
      exact this

end Verif.Geom
