import Verif.Decompile.LeafProps

/-! C167: brushes with more than one texture to a side. -/

namespace Verif.Decompile

open Verif.Geom Verif.Tree

set_option linter.unusedSectionVars false

variable {K : Type} [Field K] [LinearOrder K] [IsStrictOrderedRing K]

/-- A side does not need to be split just when its faces have one texture definition. -/
theorem needsSplit_iff (s : BSide K) : needsSplit s = false ↔ Uniform s := by
  unfold needsSplit Uniform
  cases hs : s.faces with
  | nil => simp
  | cons f rest =>
    simp only [List.any_eq_false, bne_iff_ne, ne_eq, not_not]
    constructor
    · intro h
      have h' : ∀ g ∈ f :: rest, g.texinfo = f.texinfo := by
        intro g hg
        rcases List.mem_cons.1 hg with rfl | hg
        · rfl
        · exact h g hg
      intro a ha b hb
      rw [h' a ha, h' b hb]
    · intro h g hg
      exact h g (List.mem_cons_of_mem _ hg) f List.mem_cons_self

theorem clipBrush_front (eps : K) (pl : Plane K) (b : List (BSide K)) :
    planesOf (clipBrush eps pl b).1 = planesOf b ++ [⟨negPlane pl, none, none⟩] := by
  simp [planesOf, clipBrush, BSide.clip, Function.comp_def]

theorem clipBrush_back (eps : K) (pl : Plane K) (b : List (BSide K)) :
    planesOf (clipBrush eps pl b).2 = planesOf b ++ [⟨pl, none, none⟩] := by
  simp [planesOf, clipBrush, BSide.clip, Function.comp_def]

/-- What a successful call of the recursion did. -/
theorem splitR_cases {eps : K} {edgePlanes : List (Vec K) → List (Plane K)} {fuel : Nat} {b : List (BSide K)}
    {r : List (List (BSide K)) × List (List (BSide K))} (h : splitR eps edgePlanes (fuel + 1) b = some r) :
    ((∀ s ∈ b, Uniform s) ∧ r = ([b], [])) ∨ r = ([], [b]) ∨
    ∃ pl r1 r2, splitR eps edgePlanes fuel (clipBrush eps pl b).1 = some r1 ∧
      splitR eps edgePlanes fuel (clipBrush eps pl b).2 = some r2 ∧ r = (r1.1 ++ r2.1, r1.2 ++ r2.2) := by
  simp only [splitR] at h
  cases hf : b.find? needsSplit with
  | none =>
    rw [hf] at h
    simp only [Option.some.injEq] at h
    left
    refine ⟨?_, h.symm⟩
    intro s hs
    rw [List.find?_eq_none] at hf
    exact (needsSplit_iff s).1 (by simpa using hf s hs)
  | some s =>
    rw [hf] at h
    simp only at h
    split_ifs at h with hz
    · right; left
      exact (Option.some.inj h).symm
    · right; right
      split at h
      · rename_i r1 r2 h1 h2
        exact ⟨_, r1, r2, h1, h2, (Option.some.inj h).symm⟩
      · cases h

/-- C167: every side of a brush that comes out has one texture definition. -/
theorem split_uniform {eps : K} {edgePlanes : List (Vec K) → List (Plane K)} {fuel : Nat} {b : List (BSide K)}
    {out dropped : List (List (BSide K))} (h : splitR eps edgePlanes fuel b = some (out, dropped)) :
    ∀ c ∈ out, ∀ s ∈ c, Uniform s := by
  induction fuel generalizing b out dropped with
  | zero => simp [splitR] at h
  | succ fuel ih =>
    rcases splitR_cases h with ⟨hu, e⟩ | e | ⟨pl, r1, r2, h1, h2, e⟩
    · cases e
      intro c hc
      rw [List.mem_singleton] at hc
      subst hc
      exact hu
    · cases e; simp
    · cases e
      intro c hc
      rcases List.mem_append.1 hc with hc | hc
      · exact ih h1 c hc
      · exact ih h2 c hc

/-- C167: the brushes that come out and the ones that are dropped make up the brush that went in: each of its points is in
one of them, and they have no other points. -/
theorem split_covers {eps : K} {edgePlanes : List (Vec K) → List (Plane K)} {fuel : Nat} {b : List (BSide K)}
    {out dropped : List (List (BSide K))} (h : splitR eps edgePlanes fuel b = some (out, dropped)) (x : Vec K) :
    Region (planesOf b) x ↔ ∃ c ∈ out ++ dropped, Region (planesOf c) x := by
  induction fuel generalizing b out dropped with
  | zero => simp [splitR] at h
  | succ fuel ih =>
    rcases splitR_cases h with ⟨_, e⟩ | e | ⟨pl, r1, r2, h1, h2, e⟩
    · cases e; simp
    · cases e; simp
    · cases e
      have i1 := ih h1
      have i2 := ih h2
      rw [clipBrush_front, region_append, region_single, negPlane_dist] at i1
      rw [clipBrush_back, region_append, region_single] at i2
      simp only [List.mem_append] at i1 i2 ⊢
      constructor
      · intro hx
        rcases le_total 0 (pl.distTo x) with hd | hd
        · obtain ⟨c, hc, hcx⟩ := i1.1 ⟨hx, by simpa using hd⟩
          exact ⟨c, by tauto, hcx⟩
        · obtain ⟨c, hc, hcx⟩ := i2.1 ⟨hx, hd⟩
          exact ⟨c, by tauto, hcx⟩
      · rintro ⟨c, hc, hcx⟩
        have : c ∈ r1.1 ∨ c ∈ r1.2 ∨ c ∈ r2.1 ∨ c ∈ r2.2 := by tauto
        rcases this with h | h | h | h
        · exact (i1.2 ⟨c, Or.inl h, hcx⟩).1
        · exact (i1.2 ⟨c, Or.inr h, hcx⟩).1
        · exact (i2.2 ⟨c, Or.inl h, hcx⟩).1
        · exact (i2.2 ⟨c, Or.inr h, hcx⟩).1

/-- What is inside one of the brushes is inside the brush that went in. -/
theorem split_inner {eps : K} {edgePlanes : List (Vec K) → List (Plane K)} {fuel : Nat} {b : List (BSide K)}
    {out dropped : List (List (BSide K))} (h : splitR eps edgePlanes fuel b = some (out, dropped)) {c : List (BSide K)}
    (hc : c ∈ out) {x : Vec K} (hx : Inner (planesOf c) x) : Inner (planesOf b) x := by
  induction fuel generalizing b out dropped with
  | zero => simp [splitR] at h
  | succ fuel ih =>
    rcases splitR_cases h with ⟨_, e⟩ | e | ⟨pl, r1, r2, h1, h2, e⟩
    · cases e
      rw [List.mem_singleton] at hc
      rwa [← hc]
    · cases e; simp at hc
    · cases e
      rcases List.mem_append.1 hc with hc | hc
      · have := ih h1 hc
        rw [clipBrush_front, inner_append] at this
        exact this.1
      · have := ih h2 hc
        rw [clipBrush_back, inner_append] at this
        exact this.1

/-- C167: the brushes that come out do not overlap. -/
theorem split_disjoint {eps : K} {edgePlanes : List (Vec K) → List (Plane K)} {fuel : Nat} {b : List (BSide K)}
    {out dropped : List (List (BSide K))} (h : splitR eps edgePlanes fuel b = some (out, dropped)) :
    out.Pairwise fun c d => ∀ x, ¬ (Inner (planesOf c) x ∧ Inner (planesOf d) x) := by
  induction fuel generalizing b out dropped with
  | zero => simp [splitR] at h
  | succ fuel ih =>
    rcases splitR_cases h with ⟨_, e⟩ | e | ⟨pl, r1, r2, h1, h2, e⟩
    · cases e; simp
    · cases e; simp
    · cases e
      rw [List.pairwise_append]
      refine ⟨ih h1, ih h2, ?_⟩
      intro c hc d hd x hx
      have i1 := split_inner h1 hc hx.1
      have i2 := split_inner h2 hd hx.2
      rw [clipBrush_front, inner_append, inner_single, negPlane_dist] at i1
      rw [clipBrush_back, inner_append, inner_single] at i2
      linarith [i1.2, i2.2]

/-- C167: the sides that come out are the ones that went in, with parts of their faces, and sides along the cuts, which
have no face. -/
theorem split_sides {eps : K} {edgePlanes : List (Vec K) → List (Plane K)} {fuel : Nat} {b : List (BSide K)}
    {out dropped : List (List (BSide K))} (h : splitR eps edgePlanes fuel b = some (out, dropped)) {c : List (BSide K)}
    (hc : c ∈ out ++ dropped) {s : BSide K} (hs : s ∈ c) :
    s.faces = [] ∨ ∃ s0 ∈ b, s0.plane = s.plane ∧ ∀ f ∈ s.faces, ∃ f0 ∈ s0.faces, f0.texinfo = f.texinfo := by
  induction fuel generalizing b out dropped with
  | zero => simp [splitR] at h
  | succ fuel ih =>
    rcases splitR_cases h with ⟨_, e⟩ | e | ⟨pl, r1, r2, h1, h2, e⟩
    · cases e
      simp only [List.append_nil, List.mem_singleton] at hc
      subst hc
      exact Or.inr ⟨s, hs, rfl, fun f hf => ⟨f, hf, rfl⟩⟩
    · cases e
      simp only [List.nil_append, List.mem_singleton] at hc
      subst hc
      exact Or.inr ⟨s, hs, rfl, fun f hf => ⟨f, hf, rfl⟩⟩
    · cases e
      simp only [List.mem_append] at hc
      have : c ∈ r1.1 ++ r1.2 ∨ c ∈ r2.1 ++ r2.2 := by simp only [List.mem_append]; tauto
      rcases this with hc | hc
      · rcases ih h1 hc with h | ⟨s1, hs1, e1, e2⟩
        · exact Or.inl h
        · simp only [clipBrush, List.mem_append, List.mem_map, List.mem_singleton] at hs1
          rcases hs1 with ⟨s0, hs0, rfl⟩ | rfl
          · refine Or.inr ⟨s0, hs0, e1, ?_⟩
            intro f hf
            obtain ⟨g, hg, e⟩ := e2 f hf
            simp only [BSide.clip, List.mem_filterMap, Option.map_eq_some_iff] at hg
            obtain ⟨f0, hf0, w, _, rfl⟩ := hg
            exact ⟨f0, hf0, e⟩
          · left
            rw [List.eq_nil_iff_forall_not_mem]
            intro f hf
            obtain ⟨g, hg, _⟩ := e2 f hf
            simp at hg
      · rcases ih h2 hc with h | ⟨s1, hs1, e1, e2⟩
        · exact Or.inl h
        · simp only [clipBrush, List.mem_append, List.mem_map, List.mem_singleton] at hs1
          rcases hs1 with ⟨s0, hs0, rfl⟩ | rfl
          · refine Or.inr ⟨s0, hs0, e1, ?_⟩
            intro f hf
            obtain ⟨g, hg, e⟩ := e2 f hf
            simp only [BSide.clip, List.mem_filterMap, Option.map_eq_some_iff] at hg
            obtain ⟨f0, hf0, w, _, rfl⟩ := hg
            exact ⟨f0, hf0, e⟩
          · left
            rw [List.eq_nil_iff_forall_not_mem]
            intro f hf
            obtain ⟨g, hg, _⟩ := e2 f hf
            simp at hg

/-- C167: a brush that is dropped has a side with two texture definitions and no plane along the edge of one of its faces
has faces of that side on both sides. -/
theorem dropped_why {eps : K} {edgePlanes : List (Vec K) → List (Plane K)} {fuel : Nat} {b : List (BSide K)}
    {out dropped : List (List (BSide K))} (hz : ∀ w, ∀ pl ∈ edgePlanes w, pl ≠ zeroPlane)
    (h : splitR eps edgePlanes fuel b = some (out, dropped)) : ∀ c ∈ dropped, ∃ s ∈ c, ¬ Uniform s ∧
      ∀ f ∈ s.faces, ∀ pl ∈ edgePlanes f.w, (s.clip eps pl).1.faces = [] ∨ (s.clip eps pl).2.faces = [] := by
  induction fuel generalizing b out dropped with
  | zero => simp [splitR] at h
  | succ fuel ih =>
    have key : ∀ (s : BSide K) (l : List (Plane K)) (best : Plane K × Option Nat), (∀ pl ∈ l, pl ≠ zeroPlane) →
        (best.2 = none → best.1 = zeroPlane) → (best.2 ≠ none → best.1 ≠ zeroPlane) →
        (l.foldl (tryPlane eps s) best).1 = zeroPlane →
        best.2 = none ∧ ∀ pl ∈ l, (s.clip eps pl).1.faces = [] ∨ (s.clip eps pl).2.faces = [] := by
      intro s l
      induction l with
      | nil =>
        intro best _ _ hb he
        refine ⟨?_, by simp⟩
        by_contra hcon
        exact hb hcon he
      | cons pl l ihl =>
        intro best hl ha hb he
        rw [List.foldl_cons] at he
        have hpl := hl pl List.mem_cons_self
        have hl' := fun q hq => hl q (List.mem_cons_of_mem _ hq)
        by_cases h1 : (s.clip eps pl).1.faces = []
        · have e : tryPlane eps s best pl = best := by unfold tryPlane; simp only; rw [if_pos h1]
          rw [e] at he
          obtain ⟨x, y⟩ := ihl best hl' ha hb he
          refine ⟨x, ?_⟩
          intro q hq
          rcases List.mem_cons.1 hq with rfl | hq
          · exact Or.inl h1
          · exact y q hq
        by_cases h2 : (s.clip eps pl).2.faces = []
        · have e : tryPlane eps s best pl = best := by unfold tryPlane; simp only; rw [if_neg h1, if_pos h2]
          rw [e] at he
          obtain ⟨x, y⟩ := ihl best hl' ha hb he
          refine ⟨x, ?_⟩
          intro q hq
          rcases List.mem_cons.1 hq with rfl | hq
          · exact Or.inr h2
          · exact y q hq
        exfalso
        have e : ∃ n, tryPlane eps s best pl = (pl, some n) ∨ tryPlane eps s best pl = best ∧ best.2 ≠ none := by
          refine ⟨(s.clip eps pl).1.faces.length + (s.clip eps pl).2.faces.length, ?_⟩
          unfold tryPlane
          simp only
          rw [if_neg h1, if_neg h2]
          cases best.2 with
          | none => simp
          | some m => by_cases hm : (s.clip eps pl).1.faces.length + (s.clip eps pl).2.faces.length < m <;> simp [hm]
        obtain ⟨n, e | ⟨e, hne⟩⟩ := e
        · rw [e] at he
          have := (ihl (pl, some n) hl' (by simp) (by simp [hpl]) he).1
          simp at this
        · rw [e] at he
          exact hne (ihl best hl' ha hb he).1
    simp only [splitR] at h
    cases hf : b.find? needsSplit with
    | none => rw [hf] at h; cases h; simp
    | some s =>
      rw [hf] at h
      simp only at h
      split_ifs at h with hz'
      · cases h
        intro c hc
        rw [List.mem_singleton] at hc
        subst hc
        refine ⟨s, List.mem_of_find?_eq_some hf, ?_, ?_⟩
        · have := List.find?_some hf
          intro hu
          rw [(needsSplit_iff s).2 hu] at this
          cases this
        · intro f hf' pl hpl
          refine (key s _ (zeroPlane, none) ?_ (by simp) (by simp) hz').2 pl (List.mem_flatMap.2 ⟨f, hf', hpl⟩)
          intro q hq
          obtain ⟨g, _, hg⟩ := List.mem_flatMap.1 hq
          exact hz g.w q hg
      · split at h
        · rename_i r1 r2 h1 h2
          cases h
          intro c hc
          rcases List.mem_append.1 hc with hc | hc
          · exact ih h1 c hc
          · exact ih h2 c hc
        · cases h

/-! ## Examples -/

def faceAt (x0 x1 : ℚ) (t : Nat) : BFace ℚ := ⟨[⟨x0, 8, 8⟩, ⟨x1, 8, 8⟩, ⟨x1, -8, 8⟩, ⟨x0, -8, 8⟩], t⟩

/-- The planes through the edges of a square on top of the box, which face in. -/
def sqEdges (w : List (Vec ℚ)) : List (Plane ℚ) :=
  match w with
  | [a, b, c, _] => [⟨⟨0, -1, 0⟩, -a.y⟩, ⟨⟨-1, 0, 0⟩, -b.x⟩, ⟨⟨0, 1, 0⟩, c.y⟩, ⟨⟨1, 0, 0⟩, a.x⟩]
  | _ => []

theorem sqEdges_ne : ∀ w, ∀ pl ∈ sqEdges w, pl ≠ zeroPlane := by
  intro w pl h
  unfold sqEdges at h
  split at h
  · simp only [List.mem_cons, List.not_mem_nil, or_false] at h
    rcases h with rfl | rfl | rfl | rfl <;> simp [zeroPlane]
  · simp at h

def boxSides (top : List (BFace ℚ)) : List (BSide ℚ) :=
  [⟨⟨⟨⟨0, 0, 1⟩, 8⟩, none, none⟩, top⟩, ⟨⟨⟨⟨0, 0, -1⟩, 8⟩, none, none⟩, []⟩, ⟨⟨⟨⟨1, 0, 0⟩, 8⟩, none, none⟩, []⟩,
   ⟨⟨⟨⟨-1, 0, 0⟩, 8⟩, none, none⟩, []⟩, ⟨⟨⟨⟨0, 1, 0⟩, 8⟩, none, none⟩, []⟩, ⟨⟨⟨⟨0, -1, 0⟩, 8⟩, none, none⟩, []⟩]

/-- A box with two textures on its top is cut into two brushes. -/
example : (splitR (1 / 10) sqEdges 3 (boxSides [faceAt (-8) 0 1, faceAt 0 8 2])).map (fun r =>
    (r.1.map fun b => (b.length, b.map fun s => s.faces.map (·.texinfo)), r.2)) =
    some ([(7, [[1], [], [], [], [], [], []]), (7, [[2], [], [], [], [], [], []])], []) := by decide +kernel

/-- C167 does not hold for all brushes: a box with two faces with different textures in the same place is dropped whole. -/
theorem split_lost : splitR (1 / 10) sqEdges 3 (boxSides [faceAt (-8) 8 1, faceAt (-8) 8 2]) =
      some ([], [boxSides [faceAt (-8) 8 1, faceAt (-8) 8 2]]) ∧
    Region (planesOf (boxSides [faceAt (-8) 8 1, faceAt (-8) 8 2])) ⟨0, 0, 0⟩ := by
  refine ⟨by decide +kernel, ?_⟩
  simp [Region, planesOf, boxSides, Plane.distTo, dot]

/-- C167: when nothing is dropped, the brushes that come out take up just the points of the brush that went in. Missing:
a brush for which no cut is found is dropped (`split_lost`). -/
theorem split_region_partial {eps : K} {edgePlanes : List (Vec K) → List (Plane K)} {fuel : Nat} {b : List (BSide K)}
    {out : List (List (BSide K))} (h : splitR eps edgePlanes fuel b = some (out, [])) (x : Vec K) :
    Region (planesOf b) x ↔ ∃ c ∈ out, Region (planesOf c) x := by
  have := split_covers h x
  simpa using this

end Verif.Decompile
