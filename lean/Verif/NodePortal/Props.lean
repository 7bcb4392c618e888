import Verif.NodePortal.Lemmas

/-! Property C242: the winding of the portal that a node makes. -/

namespace Verif.NodePortal

open Verif.Geom Verif.Geom.Spec Spec

set_option linter.unusedSectionVars false

variable {K : Type} [Field K] [LinearOrder K] [IsStrictOrderedRing K]

/-- The planes that clip, for a portal that is made or not. -/
theorem nodePortal_steps {inv : Vec K → K} {tiny : List (Vec K) → Bool} {extent : K} {t : Tree K} {way : List Bool} {pl : Plane K}
    {around : List (Around K)} {r : Option (Plane K × List (Vec K))} (ht : UnitTree t) (ha : ∀ p ∈ around, UnitNormal p.plane)
    (h : nodePortal inv tiny extent t way pl around = .ok r) :
    ∃ cs w, Fine cs ∧ Steps cs (fromPlane inv pl extent) w ∧
      (∀ c ∈ cs, (∃ q s, BoundedBy t way q s ∧ c = (facing q s, 1 / 1000)) ∨
        ∃ p ∈ around, ∃ s, p.inFront = some s ∧ c = (facing p.plane s, 1 / 10)) ∧
      (∀ f, w = some f → (∀ q s, BoundedBy t way q s → (facing q s, 1 / 1000) ∈ cs) ∧
        ∀ p ∈ around, ∃ s, p.inFront = some s ∧ (facing p.plane s, 1 / 10) ∈ cs) ∧
      r = w.bind fun w => if tiny w then none else some (pl, w) := by
  unfold nodePortal at h
  obtain ⟨w, h1, h2⟩ := Outcome.bind_eq_ok.mp h
  have hr : r = w.bind fun w => if tiny w then none else some (pl, w) := by
    cases w with
    | none => simpa using h2.symm
    | some w =>
      simp only [Option.bind_some]
      by_cases htn : tiny w = true
      · simpa [htn] using h2.symm
      · simpa [htn] using h2.symm
  have hs := above_steps (above t way) (fromPlane inv pl extent)
  have e1 : (0 : K) ≤ 1 / 1000 := by positivity
  have e2 : (0 : K) ≤ 1 / 10 := by positivity
  have hA : ∀ c ∈ (above t way).map (fun c => (facing c.1 c.2, (1 / 1000 : K))),
      ∃ q s, BoundedBy t way q s ∧ c = (facing q s, 1 / 1000) := by
    intro c hc
    obtain ⟨⟨q, s⟩, hq, rfl⟩ := List.mem_map.mp hc
    exact ⟨q, s, mem_above hq, rfl⟩
  have hF : Fine ((above t way).map (fun c => (facing c.1 c.2, (1 / 1000 : K)))) := by
    intro c hc
    obtain ⟨q, s, hb, rfl⟩ := hA c hc
    exact ⟨facing_unit (bounded_unit ht hb) s, e1⟩
  unfold baseWinding at h1
  cases hb : clipAbove (above t way) (some (fromPlane inv pl extent)) with
  | none =>
    rw [hb] at h1 hs
    rw [clipAround_none] at h1
    simp only [Outcome.ok.injEq] at h1
    subst h1
    exact ⟨_, none, hF, hs, fun c hc => .inl (hA c hc), by simp, hr⟩
  | some m =>
    rw [hb] at h1 hs
    obtain ⟨g1, cs, g2, g3, g4⟩ := around_steps around m h1
    refine ⟨_, w, ?_, steps_append hs g2, ?_, ?_, hr⟩
    · intro c hc
      rcases List.mem_append.mp hc with hc | hc
      · exact hF c hc
      · obtain ⟨p, hp, s, -, rfl⟩ := g3 c hc
        exact ⟨facing_unit (ha p hp) s, e2⟩
    · intro c hc
      rcases List.mem_append.mp hc with hc | hc
      · exact .inl (hA c hc)
      · exact .inr (g3 c hc)
    · intro f hf
      refine ⟨fun q s hq => List.mem_append.mpr (.inl (List.mem_map.mpr ⟨(q, s), above_mem hq, rfl⟩)), fun p hp => ?_⟩
      cases hi : p.inFront with
      | none => exact absurd hi (g1 f hf p hp)
      | some s => exact ⟨s, rfl, List.mem_append.mpr (.inr (g4 f hf p hp s hi))⟩

theorem made {r : Option (Plane K × List (Vec K))} {w : Option (List (Vec K))} {tiny : List (Vec K) → Bool} {pl q : Plane K}
    {f : List (Vec K)} (h : r = w.bind fun w => if tiny w then none else some (pl, w)) (hr : r = some (q, f)) :
    w = some f ∧ q = pl ∧ tiny f = false := by
  subst hr
  cases w with
  | none => simp at h
  | some w =>
    simp only [Option.bind_some] at h
    split at h
    · simp at h
    · rename_i hn
      simp only [Option.some.injEq, Prod.mk.injEq] at h
      obtain ⟨rfl, rfl⟩ := h
      exact ⟨rfl, rfl, by simpa using hn⟩

/-- C242: the portal of a node has the plane of the node and is not tiny. All its points lie on that plane, in the region of the node
up to 1/1000, and on the node's side of all portals around it up to 1/10. -/
theorem portal_in_region (inv : Vec K → K) (tiny : List (Vec K) → Bool) (extent : K) (t : Tree K) (way : List Bool) (pl : Plane K)
    (f b : Tree K) (hn : t.sub way = some (.node pl f b)) (around : List (Around K)) (ht : UnitTree t)
    (ha : ∀ p ∈ around, UnitNormal p.plane) (q : Plane K) (w : List (Vec K))
    (h : nodePortal inv tiny extent t way pl around = .ok (some (q, w))) :
    q = pl ∧ tiny w = false ∧ ∀ v ∈ w, pl.distTo v = 0 ∧
      (∀ c side, BoundedBy t way c side → -(1 / 1000) ≤ depth c side v) ∧
      ∀ p ∈ around, ∃ side, p.inFront = some side ∧ -(1 / 10) ≤ depth p.plane side v := by
  obtain ⟨cs, r, h1, h2, -, h4, h5⟩ := nodePortal_steps ht ha h
  obtain ⟨rfl, rfl, htn⟩ := made h5 rfl
  refine ⟨rfl, htn, fun v hv => ⟨?_, ?_, ?_⟩⟩
  · have ho := fromPlane_on inv (sub_unit ht hn) extent
    have a := steps_bound (q := q) (c := 0) h1 h2 (fun v hv => (ho v hv).ge) v hv
    have b := steps_bound (q := q.neg) (c := 0) h1 h2 (fun v hv => by rw [neg_distTo, ho v hv]; simp) v hv
    rw [neg_distTo] at b
    linarith
  · intro c side hb
    have := steps_inside h1 h2 _ ((h4 w rfl).1 c side hb) v hv
    rwa [facing_dist] at this
  · intro p hp
    obtain ⟨s, hs, hm⟩ := (h4 w rfl).2 p hp
    have := steps_inside h1 h2 _ hm v hv
    rw [facing_dist] at this
    exact ⟨s, hs, this⟩

/-- C242: the portal ends nowhere within the region: each of its edges is part of an edge of the square of the plane, or lies along a
plane that bounds the region, or along a portal around the node. -/
theorem portal_edges (inv : Vec K → K) (tiny : List (Vec K) → Bool) (extent : K) (t : Tree K) (way : List Bool) (pl : Plane K)
    (around : List (Around K)) (ht : UnitTree t) (ha : ∀ p ∈ around, UnitNormal p.plane) (q : Plane K) (w : List (Vec K))
    (h : nodePortal inv tiny extent t way pl around = .ok (some (q, w))) :
    ∀ e ∈ edges w, (∃ o ∈ edges (fromPlane inv pl extent), PartOf e o) ∨
      (∃ c side, BoundedBy t way c side ∧ Along c (1 / 1000) e) ∨ ∃ p ∈ around, Along p.plane (1 / 10) e := by
  obtain ⟨cs, r, h1, h2, h3, -, h5⟩ := nodePortal_steps ht ha h
  obtain ⟨rfl, rfl, htn⟩ := made h5 rfl
  intro e he
  rcases steps_edges h1 h2 e he with h | ⟨c, hc, hal⟩
  · exact .inl h
  · rcases h3 c hc with ⟨c', s, hb, rfl⟩ | ⟨p, hp, s, -, rfl⟩
    · exact .inr (.inl ⟨c', s, hb, along_facing.mp hal⟩)
    · exact .inr (.inr ⟨p, hp, along_facing.mp hal⟩)

/-- C242: what is on the border of the square of the plane and well within the region is on the border of the portal, unless the
portal is tiny. -/
theorem portal_kept (inv : Vec K → K) (tiny : List (Vec K) → Bool) (extent : K) (t : Tree K) (way : List Bool) (pl : Plane K)
    (around : List (Around K)) (ht : UnitTree t) (ha : ∀ p ∈ around, UnitNormal p.plane) (r : Option (Plane K × List (Vec K)))
    (h : nodePortal inv tiny extent t way pl around = .ok r) (o : Vec K × Vec K) (ho : o ∈ edges (fromPlane inv pl extent))
    (x : Vec K) (hx : OnSeg x o.1 o.2) (hr : ∀ c side, BoundedBy t way c side → 1 / 1000 < depth c side x)
    (hp : ∀ p ∈ around, ∀ side, p.inFront = some side → 1 / 10 < depth p.plane side x) :
    ∃ w, (r = some (pl, w) ∨ r = none ∧ tiny w = true) ∧ ∃ e ∈ edges w, OnSeg x e.1 e.2 := by
  obtain ⟨cs, w, h1, h2, h3, -, h5⟩ := nodePortal_steps ht ha h
  obtain ⟨f, rfl, he⟩ := steps_covers h1 h2 ho hx (by
    intro c hc
    rcases h3 c hc with ⟨c', s, hb, rfl⟩ | ⟨p, hpp, s, hs, rfl⟩
    · rw [facing_dist]; exact hr c' s hb
    · rw [facing_dist]; exact hp p hpp s hs)
  refine ⟨f, ?_, he⟩
  rw [h5, Option.bind_some]
  cases hc : tiny f
  · exact .inl (by simp)
  · exact .inr (by simp)

/-- C242: making the portal fails only for a portal around the node that has it on no side. -/
theorem portal_fails (inv : Vec K → K) (tiny : List (Vec K) → Bool) (extent : K) (t : Tree K) (way : List Bool) (pl : Plane K)
    (around : List (Around K)) (hl : ∀ p ∈ around, p.inFront ≠ none) :
    ∃ r, nodePortal inv tiny extent t way pl around = .ok r := by
  have key : ∀ (l : List (Around K)) (w : Option (List (Vec K))), (∀ p ∈ l, p.inFront ≠ none) → ∃ r, clipAround l w = .ok r := by
    intro l
    induction l with
    | nil => intro w _; exact ⟨w, rfl⟩
    | cons p l ih =>
      intro w h
      cases w with
      | none => exact ⟨none, rfl⟩
      | some w =>
        have hl : ∀ p ∈ l, p.inFront ≠ none := fun q hq => h q (List.mem_cons_of_mem _ hq)
        rw [clipAround]
        cases hp : p.inFront with
        | none => exact absurd hp (h p (List.mem_cons_self ..))
        | some s => cases s <;> exact ih _ hl
  obtain ⟨w, hw⟩ := key around (baseWinding inv extent t way pl) hl
  unfold nodePortal
  rw [hw, Outcome.ok_bind]
  cases w with
  | none => exact ⟨none, rfl⟩
  | some w =>
    by_cases h : tiny w = true
    · exact ⟨none, by simp [h]⟩
    · exact ⟨some (pl, w), by simp [h]⟩

/-- A node behind the plane `x = 3` with the plane `z = 5` and a portal at `y = -4`. -/
def exampleTree : Tree Rat := .node ⟨⟨1, 0, 0⟩, 3⟩ .leaf (.node ⟨⟨0, 0, 1⟩, 5⟩ .leaf .leaf)

example : exampleTree.sub [false] = some (.node ⟨⟨0, 0, 1⟩, 5⟩ .leaf .leaf) ∧ UnitTree exampleTree ∧
    BoundedBy exampleTree [false] ⟨⟨1, 0, 0⟩, 3⟩ false := by
  refine ⟨rfl, ?_, [], [], .leaf, _, rfl, rfl⟩
  simp [UnitTree, exampleTree, UnitNormal, dot]

/-- The square of its plane. -/
theorem exampleSquare : fromPlane (fun _ => 1) (⟨⟨0, 0, 1⟩, 5⟩ : Plane Rat) 10 = [⟨10, 10, 5⟩, ⟨10, -10, 5⟩, ⟨-10, -10, 5⟩, ⟨-10, 10, 5⟩] := by
  have h : upAxis (⟨0, 0, 1⟩ : Vec Rat) = ⟨1, 0, 0⟩ := by simp [upAxis]
  unfold fromPlane
  rw [h]
  decide +kernel

example : nodePortal (fun _ => 1) (fun _ => false) 10 exampleTree [false] ⟨⟨0, 0, 1⟩, 5⟩ [⟨⟨⟨0, 1, 0⟩, -4⟩, some true⟩] =
    .ok (some (⟨⟨0, 0, 1⟩, 5⟩, [⟨-10, -4, 5⟩, ⟨-10, 10, 5⟩, ⟨3, 10, 5⟩, ⟨3, -4, 5⟩])) := by
  unfold nodePortal baseWinding
  rw [exampleSquare]
  decide +kernel

end Verif.NodePortal
