import Verif.Flood.OutsideLemmas
import Verif.Flood.Sides

/-! C81: which brush sides are visible. -/

namespace Verif.Flood

open Spec Contents

theorem markSidesInvisible_spec (hint : Nat → Bool) : ∀ (ss : List (Option Nat)) (vis : Nat → Bool) (s : Nat),
    markSidesInvisible hint ss vis s = if some s ∈ ss then hint s else vis s := by
  intro ss
  induction ss with
  | nil => intro vis s; simp [markSidesInvisible]
  | cons a ss ih =>
    intro vis s
    cases a with
    | none => simp [markSidesInvisible, ih]
    | some t =>
      simp only [markSidesInvisible, ih]
      by_cases hst : s = t
      · subst hst
        by_cases h : some s ∈ ss
        · simp [h]
        · cases hh : hint s <;> simp [h, setAt]
      · by_cases h : some s ∈ ss
        · simp [h]
        · cases hh : hint t <;> simp [h, setAt, hst]

theorem showSides_spec : ∀ (ss : List Nat) (vis : Nat → Bool) (s : Nat),
    showSides ss vis s = true ↔ vis s = true ∨ s ∈ ss := by
  intro ss
  induction ss with
  | nil => intro vis s; simp [showSides]
  | cons a ss ih =>
    intro vis s
    simp only [showSides, ih, List.mem_cons]
    by_cases h : s = a
    · subst h; simp [setAt]
    · simp [setAt, h]

theorem showPortals_spec (touch : Nat → Nat → List Nat) (v : Nat) : ∀ (l : List (Nat × Portal)) (vis : Nat → Bool) (s : Nat),
    showPortals touch v l vis s = true ↔ vis s = true ∨ ∃ x ∈ l, s ∈ touch (across x.2 v) x.1 := by
  intro l
  induction l with
  | nil => intro vis s; simp [showPortals]
  | cons a l ih =>
    intro vis s
    obtain ⟨k, p⟩ := a
    simp only [showPortals, ih, showSides_spec, List.mem_cons, exists_eq_or_imp, or_assoc]

theorem mem_portalsOf {ps : List Portal} {v k : Nat} {p : Portal} :
    (k, p) ∈ portalsOf ps v ↔ ps[k]? = some p ∧ (p.n0 = v ∨ p.n1 = v) := by
  simp only [portalsOf, List.mem_map, List.mem_filter, List.mem_reverse, Prod.exists, Prod.mk.injEq]
  constructor
  · rintro ⟨p', i, ⟨hm, hv⟩, rfl, rfl⟩
    rw [List.mem_zipIdx_iff_getElem?] at hm
    exact ⟨hm, by simpa using hv⟩
  · rintro ⟨h1, h2⟩
    exact ⟨p, k, ⟨by rw [List.mem_zipIdx_iff_getElem?]; exact h1, by simpa using h2⟩, rfl, rfl⟩

theorem markSidesVisible_spec (g : Game) (contents : Nat → Contents) (ps : List Portal) (touch : Nat → Nat → List Nat) :
    ∀ (vs : List Nat) (vis : Nat → Bool) (s : Nat), markSidesVisible g contents ps touch vs vis s = true ↔
      vis s = true ∨ ∃ v ∈ vs, ¬ Opaque g (contents v) ∧ ∃ x ∈ portalsOf ps v, s ∈ touch (across x.2 v) x.1 := by
  intro vs
  induction vs with
  | nil => intro vis s; simp [markSidesVisible]
  | cons v vs ih =>
    intro vis s
    simp only [markSidesVisible]
    by_cases h : g.sealsDetail (contents v) = true
    · rw [if_pos h, ih]
      simp only [List.mem_cons, exists_eq_or_imp, (opaque_iff _ _).1 h, not_true, false_and, false_or]
    · rw [if_neg h, ih, showPortals_spec]
      have h' : ¬ Opaque g (contents v) := fun hh => h ((opaque_iff _ _).2 hh)
      simp only [List.mem_cons, exists_eq_or_imp, h', not_false_eq_true, true_and, or_assoc]

/-- **C81.** After filling, a side of a brush of the hull is visible exactly if it is a hint side or it lies on a portal
between a leaf that is neither solid nor sky and a leaf that its brush is part of. -/
theorem sides_visible (g : Game) (contents : Nat → Contents) (ps : List Portal) (leafs : List Nat)
    (touch : Nat → Nat → List Nat) (hint : Nat → Bool) (sides : List (Option Nat)) (vis : Nat → Bool) {s : Nat}
    (hs : some s ∈ sides) :
    markSides g contents ps leafs touch hint sides vis s = true ↔
      hint s = true ∨ ∃ (k : Nat) (p : Portal) (u v : Nat), ps[k]? = some p ∧ Between p u v ∧ u ∈ leafs ∧
        ¬ Opaque g (contents u) ∧ s ∈ touch v k := by
  unfold markSides
  rw [markSidesVisible_spec, markSidesInvisible_spec, if_pos hs]
  refine or_congr Iff.rfl ?_
  constructor
  · rintro ⟨u, hu, ho, ⟨k, p⟩, hx, hm⟩
    obtain ⟨h1, h2⟩ := mem_portalsOf.1 hx
    refine ⟨k, p, u, across p u, h1, ?_, hu, ho, hm⟩
    unfold across Between
    by_cases h0 : p.n0 = u
    · rw [if_pos h0]; exact Or.inl ⟨h0, rfl⟩
    · rw [if_neg h0]; exact Or.inr ⟨h2.resolve_left h0, rfl⟩
  · rintro ⟨k, p, u, v, h1, h2, hu, ho, hm⟩
    refine ⟨u, hu, ho, (k, p), mem_portalsOf.2 ⟨h1, ?_⟩, ?_⟩
    · rcases h2 with ⟨h, -⟩ | ⟨h, -⟩
      · exact Or.inl h
      · exact Or.inr h
    · simp only [between_across h2]; exact hm

/-- A side that is not part of the hull is only ever made visible. -/
theorem sides_other (g : Game) (contents : Nat → Contents) (ps : List Portal) (leafs : List Nat)
    (touch : Nat → Nat → List Nat) (hint : Nat → Bool) (sides : List (Option Nat)) (vis : Nat → Bool) {s : Nat}
    (hs : some s ∉ sides) (hv : vis s = true) : markSides g contents ps leafs touch hint sides vis s = true := by
  unfold markSides
  rw [markSidesVisible_spec, markSidesInvisible_spec, if_neg hs]
  exact Or.inl hv

/-- Non-vacuity: a wall (leaf 1) between the room (leaf 0) and filled void (leaf 2). Side 5 faces the room, side 6 the
void, side 7 is a hint. -/
example :
    let c : Nat → Contents := fun v => if v = 0 then 0 else SOLID
    let ps : List Portal := [⟨0, 1, some 10⟩, ⟨1, 2, some 11⟩]
    let touch : Nat → Nat → List Nat := fun v k => if v = 1 then (if k = 0 then [5] else [6]) else []
    (List.map (markSides .q1 c ps [0, 1, 2] touch (fun s => s = 7) [some 5, some 6, some 7, none] fun _ => true) [5, 6, 7]) =
      [true, false, true] := by
  decide +kernel

end Verif.Flood
