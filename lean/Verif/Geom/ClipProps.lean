import Verif.Geom.PartLemmas

/-! Properties C45, C46: clipping of polygons. -/

namespace Verif.Geom

open Spec

variable {K : Type} [Field K] [LinearOrder K] [IsStrictOrderedRing K]

/-- C45: every vertex of the front part is in front of the plane or within epsilon of it, every vertex of the back part
behind or within epsilon. -/
theorem clip_stays_on_side {pl : Plane K} {eps : K} (he : 0 ≤ eps) (hu : UnitNormal pl) (keepon : Bool)
    (w : List (Vec K)) :
    (∀ f, (clip pl eps keepon w).1 = some f → ∀ v ∈ f, -eps ≤ pl.distTo v) ∧
    (∀ b, (clip pl eps keepon w).2 = some b → ∀ v ∈ b, pl.distTo v ≤ eps) := by
  constructor
  · intro f hf v hv
    exact (part_vertices he hu (clip_front_part hf) v hv).1
  · intro b hb v hv
    have := (part_vertices he (neg_unit hu) (clip_back_part he hb) v hv).1
    rw [neg_distTo] at this
    linarith

/-- C45: a vertex of a part is an original vertex, or a point strictly inside an original edge that lies on the plane. -/
theorem clip_vertices {pl : Plane K} {eps : K} (he : 0 ≤ eps) (hu : UnitNormal pl) (keepon : Bool) (w f : List (Vec K))
    (h : (clip pl eps keepon w).1 = some f ∨ (clip pl eps keepon w).2 = some f) (v : Vec K) (hv : v ∈ f) :
    v ∈ w ∨ ∃ o ∈ edges w, ∃ t, 0 < t ∧ t < 1 ∧ v = along o.1 o.2 t ∧ pl.distTo v = 0 := by
  rcases h with h | h
  · rcases (part_vertices he hu (clip_front_part h) v hv).2 with h | ⟨o, ho, hs⟩
    · exact Or.inl h
    · obtain ⟨t, h0, h1, e⟩ := hs.eq
      exact Or.inr ⟨o, ho, t, h0, h1, e, hs.on⟩
  · rcases (part_vertices he (neg_unit hu) (clip_back_part he h) v hv).2 with h | ⟨o, ho, hs⟩
    · exact Or.inl h
    · obtain ⟨t, h0, h1, e⟩ := hs.eq
      have := hs.on
      rw [neg_distTo, neg_eq_zero] at this
      exact Or.inr ⟨o, ho, t, h0, h1, e, this⟩

/-- C45: every original vertex is in a part; those in front of the plane are in the front part, those behind it in the
back part. When a part is missing, no vertex is on that side. -/
theorem clip_keeps_vertices {pl : Plane K} {eps : K} (he : 0 ≤ eps) (hu : UnitNormal pl) (keepon : Bool)
    (w : List (Vec K)) (p : Vec K) (hp : p ∈ w) :
    (eps < pl.distTo p → ∃ f, (clip pl eps keepon w).1 = some f ∧ p ∈ f) ∧
    (pl.distTo p < -eps → ∃ b, (clip pl eps keepon w).2 = some b ∧ p ∈ b) ∧
    ((∃ f, (clip pl eps keepon w).1 = some f ∧ p ∈ f) ∨ (∃ b, (clip pl eps keepon w).2 = some b ∧ p ∈ b)) := by
  have hf : sideOf eps (pl.distTo p) ≠ .back → (∃ f, (clip pl eps keepon w).1 = some f ∧ p ∈ f) ∨
      ((clip pl eps keepon w).1 = none) := by
    intro hne
    cases hc : (clip pl eps keepon w).1 with
    | none => exact Or.inr rfl
    | some f => exact Or.inl ⟨f, rfl, part_keeps he hu (clip_front_part hc) p hp hne⟩
  have hb : sideOf eps (pl.distTo p) ≠ .front → (∃ b, (clip pl eps keepon w).2 = some b ∧ p ∈ b) ∨
      ((clip pl eps keepon w).2 = none) := by
    intro hne
    cases hc : (clip pl eps keepon w).2 with
    | none => exact Or.inr rfl
    | some b => exact Or.inl ⟨b, rfl, part_keeps he (neg_unit hu) (clip_back_part he hc) p hp (not_front_neg he hne)⟩
  have c1 : eps < pl.distTo p → ∃ f, (clip pl eps keepon w).1 = some f ∧ p ∈ f := by
    intro hd
    have hs : sideOf eps (pl.distTo p) = .front := by unfold sideOf; rw [if_pos hd]
    rcases hf (by simp [hs]) with h | h
    · exact h
    · exact absurd hs (clip_front_none h p hp)
  have c2 : pl.distTo p < -eps → ∃ b, (clip pl eps keepon w).2 = some b ∧ p ∈ b := by
    intro hd
    have hs : sideOf eps (pl.distTo p) = .back := by
      unfold sideOf; rw [if_neg (by linarith), if_pos hd]
    rcases hb (by simp [hs]) with h | h
    · exact h
    · exact absurd hs (clip_back_none h p hp)
  refine ⟨c1, c2, ?_⟩
  cases hs : sideOf eps (pl.distTo p) with
  | front => exact Or.inl (c1 (side_front hs))
  | back => exact Or.inr (c2 (side_back hs))
  | on =>
    rcases hf (by simp [hs]) with h | h
    · exact Or.inl h
    · rcases hb (by simp [hs]) with h' | h'
      · exact Or.inr h'
      · exfalso
        unfold clip at h h'
        split at h
        · simp at h
        · rename_i c0
          rw [if_neg c0] at h'
          split at h
          · rename_i c1; rw [if_pos c1] at h'; simp at h'
          · split at h
            · simp at h
            · split at h <;> simp at h

/-- C45: nothing of the boundary is lost. A point of an original edge in front of the plane (by more than epsilon) is on
an edge of the front part, one behind it is on an edge of the back part. -/
theorem clip_keeps_boundary {pl : Plane K} {eps : K} (he : 0 ≤ eps) (hu : UnitNormal pl) (keepon : Bool)
    (w : List (Vec K)) (o : Vec K × Vec K) (ho : o ∈ edges w) (x : Vec K) (hx : OnSeg x o.1 o.2) :
    (eps < pl.distTo x → ∃ f, (clip pl eps keepon w).1 = some f ∧ ∃ e ∈ edges f, OnSeg x e.1 e.2) ∧
    (pl.distTo x < -eps → ∃ b, (clip pl eps keepon w).2 = some b ∧ ∃ e ∈ edges b, OnSeg x e.1 e.2) := by
  obtain ⟨m1, m2⟩ := mem_edges ho
  constructor
  · intro hd
    cases hc : (clip pl eps keepon w).1 with
    | none =>
      exfalso
      have hn := clip_front_none hc
      have hle : ∀ p ∈ w, pl.distTo p ≤ eps := by
        intro p hp
        by_contra hcon
        exact hn p hp (by unfold sideOf; rw [if_pos (lt_of_not_ge hcon)])
      have := onSeg_dist_le hx (hle _ m1) (hle _ m2)
      linarith
    | some f => exact ⟨f, rfl, part_covers he hu (clip_front_part hc) o ho x hx hd⟩
  · intro hd
    have hd' : eps < pl.neg.distTo x := by rw [neg_distTo]; linarith
    cases hc : (clip pl eps keepon w).2 with
    | none =>
      exfalso
      have hn := clip_back_none hc
      have hle : ∀ p ∈ w, pl.neg.distTo p ≤ eps := by
        intro p hp
        rw [neg_distTo]
        by_contra hcon
        have : pl.distTo p < -eps := by linarith
        exact hn p hp (by unfold sideOf; rw [if_neg (by linarith), if_pos this])
      have := onSeg_dist_le hx (hle _ m1) (hle _ m2)
      linarith
    | some b => exact ⟨b, rfl, part_covers he (neg_unit hu) (clip_back_part he hc) o ho x hx hd'⟩

/-- C45: nothing is invented. An edge of a part is a piece of an original edge, or both its ends are on the plane within
epsilon. -/
theorem clip_edges {pl : Plane K} {eps : K} (he : 0 ≤ eps) (hu : UnitNormal pl) (keepon : Bool) (w f : List (Vec K))
    (h : (clip pl eps keepon w).1 = some f ∨ (clip pl eps keepon w).2 = some f) (e : Vec K × Vec K) (hee : e ∈ edges f) :
    (∃ o ∈ edges w, OnSeg e.1 o.1 o.2 ∧ OnSeg e.2 o.1 o.2) ∨
    (|pl.distTo e.1| ≤ eps ∧ |pl.distTo e.2| ≤ eps) := by
  rcases h with h | h
  · rcases part_edges he hu (clip_front_part h) e hee with h | ⟨⟨a, b⟩, c, d⟩
    · exact Or.inl h
    · exact Or.inr ⟨abs_le.2 ⟨a, b⟩, abs_le.2 ⟨c, d⟩⟩
  · rcases part_edges he (neg_unit hu) (clip_back_part he h) e hee with h | ⟨⟨a, b⟩, c, d⟩
    · exact Or.inl h
    · rw [neg_distTo] at a b c d
      exact Or.inr ⟨abs_le.2 ⟨by linarith, by linarith⟩, abs_le.2 ⟨by linarith, by linarith⟩⟩

/-- C46: `clip_front` and `clip_back` return the same polygons as `clip`, for every plane and epsilon. -/
theorem clip_front_back_agree (pl : Plane K) (eps : K) (keepon : Bool) (w : List (Vec K)) :
    clip pl eps keepon w = (clipFront pl eps keepon w, clipBack pl eps keepon w) := by
  unfold clip clipFront clipBack
  split
  · rfl
  · split
    · rfl
    · split
      · rfl
      · cases w with
        | nil => rfl
        | cons a l => simp only [clipLoop_eq]

/-- A square that is split in the middle. -/
example :
    let w : List (Vec Rat) := [⟨-2, 0, 0⟩, ⟨-2, 4, 0⟩, ⟨2, 4, 0⟩, ⟨2, 0, 0⟩]
    let pl : Plane Rat := ⟨⟨3/5, 4/5, 0⟩, 0⟩
    UnitNormal pl ∧
    clip pl 0 false w =
      (some [⟨-2, 3/2, 0⟩, ⟨-2, 4, 0⟩, ⟨2, 4, 0⟩, ⟨2, 0, 0⟩, ⟨0, 0, 0⟩],
       some [⟨-2, 0, 0⟩, ⟨-2, 3/2, 0⟩, ⟨0, 0, 0⟩]) := by
  constructor
  · unfold UnitNormal; decide +kernel
  · decide +kernel

end Verif.Geom
