import Verif.Surfaces.MakeSpec
import Verif.Surfaces.SplitLemmas
import Mathlib.Analysis.Real.Sqrt

/-! The faces of a node are what is seen, from the open leafs below it, of the portals on it. -/

namespace Verif.Surfaces

open Verif.Geom Verif.Geom.Spec Spec

set_option linter.unusedSectionVars false

variable {K : Type} [Field K] [LinearOrder K] [IsStrictOrderedRing K]

/-- A portal makes a face for a leaf beside it exactly when a side is to be seen from there, and that face is what is
seen. -/
theorem face_seen {sqrt : K → K} (hs : IsSqrt sqrt) (p : Portal K) (pside : Bool) :
    (faceFromPortal sqrt p pside = none ↔ pick pside p.sides = none) ∧
    ∀ f, faceFromPortal sqrt p pside = some f → SeenFrom p pside f := by
  unfold faceFromPortal
  cases h : pick pside p.sides with
  | none => simp
  | some s =>
    refine ⟨by simp, ?_⟩
    intro f hf
    simp only [Option.some.injEq] at hf
    subst hf
    refine ⟨⟨s, h, ?_, rfl, rfl⟩, ?_, rfl, ?_, ?_, updateSphere_ball hs _⟩
    · cases pside <;> simp [updateSphere] <;> omega
    · cases pside <;> simp [updateSphere] <;> omega
    · cases pside <;> rfl
    · cases pside <;> rfl

/-- The faces that the portals of a leaf put on a node, in order. -/
def facesOn (sqrt : K → K) (n : Path) (portals : List (Bool × Portal K)) : List (Face K) :=
  portals.filterMap fun x => if x.2.onnode = some n then faceFromPortal sqrt x.2 x.1 else none

theorem leafFaces_ok {sqrt : K → K} {portals : List (Bool × Portal K)}
    (h : ∀ x ∈ portals, (pick x.1 x.2.sides).isSome = true → x.2.onnode.isSome = true) (s : Lists K) :
    leafFaces sqrt portals s = .ok fun n => s n ++ facesOn sqrt n portals := by
  induction portals generalizing s with
  | nil => simp [leafFaces, facesOn]
  | cons x portals ih =>
    obtain ⟨back, p⟩ := x
    have ih' := ih fun x hx => h x (List.mem_cons_of_mem _ hx)
    unfold leafFaces
    cases hf : faceFromPortal sqrt p back with
    | none =>
      simp only
      rw [ih']
      congr 1
      funext n
      simp [facesOn, hf]
    | some f =>
      have hside : (pick back p.sides).isSome = true := by
        unfold faceFromPortal at hf
        cases hp : pick back p.sides with
        | none => simp [hp] at hf
        | some _ => rfl
      have hon := h (back, p) List.mem_cons_self hside
      cases hn : p.onnode with
      | none => simp [hn] at hon
      | some m =>
        simp only
        rw [ih']
        congr 1
        funext n
        simp only [Lists.push, facesOn, List.filterMap_cons, hn, hf]
        by_cases e : n = m
        · subst e
          simp
        · rw [if_neg e, if_neg (by simpa using fun h => e h.symm)]

/-- A leaf with a portal that shows a side but is on no node: a null pointer is followed. -/
theorem leafFaces_ub {sqrt : K → K} {p : Portal K} {back : Bool} {s : PSide} (hs : pick back p.sides = some s)
    (hn : p.onnode = none) (l : List (Bool × Portal K)) (ls : Lists K) : leafFaces sqrt ((back, p) :: l) ls = .ub := by
  unfold leafFaces faceFromPortal
  rw [hs, hn]

variable {sqrt : K → K} {nomerge doSubdivide : Bool} {merge subdivide : List (Face K) → List (Face K)}

/-- What is done with the faces of a node. -/
def finish (nomerge doSubdivide : Bool) (merge subdivide : List (Face K) → List (Face K)) (l : List (Face K)) :
    List (Face K) :=
  let l := if nomerge then l else merge l
  if doSubdivide then subdivide l else l

/-- The faces that the open leafs of a tree put on a node, in order. -/
def facesUnder (sqrt : K → K) (n : Path) (leafs : List (Path × List (Bool × Portal K))) : List (Face K) :=
  (leafs.map fun l => facesOn sqrt n l.2).flatten

theorem openLeafs_prefix {t : PTree K} {p : Path} {l : Path × List (Bool × Portal K)} (h : l ∈ openLeafs t p) :
    ∃ rest, l.1 = p ++ rest := by
  induction t generalizing p with
  | leaf solid portals =>
    unfold openLeafs at h
    split at h
    · simp at h
    · rw [List.mem_singleton.1 h]; exact ⟨[], by simp⟩
  | node front back ih1 ih2 =>
    unfold openLeafs at h
    rcases List.mem_append.1 h with h | h
    · obtain ⟨r, e⟩ := ih1 h
      exact ⟨false :: r, by rw [e]; simp⟩
    · obtain ⟨r, e⟩ := ih2 h
      exact ⟨true :: r, by rw [e]; simp⟩

theorem nodes_prefix {t : PTree K} {p n : Path} (h : n ∈ nodes t p) : ∃ rest, n = p ++ rest := by
  induction t generalizing p with
  | leaf solid portals => simp [nodes] at h
  | node front back ih1 ih2 =>
    unfold nodes at h
    rcases List.mem_cons.1 h with rfl | h
    · exact ⟨[], by simp⟩
    · rcases List.mem_append.1 h with h | h
      · obtain ⟨r, e⟩ := ih1 h
        exact ⟨false :: r, by rw [e]; simp⟩
      · obtain ⟨r, e⟩ := ih2 h
        exact ⟨true :: r, by rw [e]; simp⟩

/-- Portals on nodes that are proper prefixes of the leaf. -/
def OnAbove (leafs : List (Path × List (Bool × Portal K))) : Prop :=
  ∀ l ∈ leafs, ∀ x ∈ l.2, (pick x.1 x.2.sides).isSome = true →
    ∃ n rest, x.2.onnode = some n ∧ l.1 = n ++ rest ∧ rest ≠ []

theorem facesOn_nil {n : Path} {portals : List (Bool × Portal K)}
    (h : ∀ x ∈ portals, (pick x.1 x.2.sides).isSome = true → x.2.onnode ≠ some n) : facesOn sqrt n portals = [] := by
  unfold facesOn
  rw [List.filterMap_eq_nil_iff]
  intro x hx
  by_cases e : x.2.onnode = some n
  · rw [if_pos e]
    cases hs : pick x.1 x.2.sides with
    | none => unfold faceFromPortal; rw [hs]
    | some s => exact absurd e (h x hx (by rw [hs]; rfl))
  · rw [if_neg e]

/-- No leaf below one node puts faces on a node that is not above it. -/
theorem facesUnder_nil {n : Path} {leafs : List (Path × List (Bool × Portal K))} (h : OnAbove leafs)
    (hn : ∀ l ∈ leafs, ∀ rest, l.1 = n ++ rest → rest = []) : facesUnder sqrt n leafs = [] := by
  unfold facesUnder
  rw [List.flatten_eq_nil_iff]
  intro x hx
  obtain ⟨l, hl, rfl⟩ := List.mem_map.1 hx
  refine facesOn_nil fun y hy hs e => ?_
  obtain ⟨m, rest, h1, h2, h3⟩ := h l hl y hy hs
  rw [e] at h1
  simp only [Option.some.injEq] at h1
  subst h1
  exact h3 (hn l hl rest h2)

theorem facesUnder_append {n : Path} {a b : List (Path × List (Bool × Portal K))} :
    facesUnder sqrt n (a ++ b) = facesUnder sqrt n a ++ facesUnder sqrt n b := by
  simp [facesUnder]

theorem makeFaces_ok {t : PTree K} {p : Path} (h : OnAbove (openLeafs t p)) (s : Lists K)
    (hs : ∀ n ∈ nodes t p, s n = []) :
    ∃ s', makeFaces sqrt nomerge doSubdivide merge subdivide t p s = .ok s' ∧
      (∀ n ∈ nodes t p, s' n = finish nomerge doSubdivide merge subdivide (facesUnder sqrt n (openLeafs t p))) ∧
      ∀ n, n ∉ nodes t p → s' n = s n ++ facesUnder sqrt n (openLeafs t p) := by
  induction t generalizing p s with
  | leaf solid portals =>
    unfold makeFaces
    cases solid with
    | true => exact ⟨s, rfl, by simp [nodes], by simp [openLeafs, facesUnder]⟩
    | false =>
      simp only [Bool.false_eq_true, if_false]
      refine ⟨_, leafFaces_ok (fun x hx hsd => ?_) s, by simp [nodes], ?_⟩
      · obtain ⟨n, _, h1, _⟩ := h (p, portals) (by simp [openLeafs]) x hx hsd
        rw [h1]; rfl
      · intro n _
        simp [openLeafs, facesUnder]
  | node front back ih1 ih2 =>
    have hp : ∀ {q : Path} {c : Bool} {r : Path}, p ++ [c] ++ r ≠ p := by
      intro q c r e
      have := congrArg List.length e
      simp at this
    have hA : OnAbove (openLeafs front (p ++ [false])) := fun l hl => h l (List.mem_append_left _ hl)
    have hB : OnAbove (openLeafs back (p ++ [true])) := fun l hl => h l (List.mem_append_right _ hl)
    have nA : ∀ n ∈ nodes front (p ++ [false]), n ∈ nodes (.node front back) p :=
      fun n hn => List.mem_cons_of_mem _ (List.mem_append_left _ hn)
    have nB : ∀ n ∈ nodes back (p ++ [true]), n ∈ nodes (.node front back) p :=
      fun n hn => List.mem_cons_of_mem _ (List.mem_append_right _ hn)
    have hAB : ∀ n, n ∈ nodes front (p ++ [false]) → n ∉ nodes back (p ++ [true]) := by
      intro n ha hb
      obtain ⟨r1, e1⟩ := nodes_prefix ha
      obtain ⟨r2, e2⟩ := nodes_prefix hb
      rw [e1] at e2
      simp at e2
    have pA : p ∉ nodes front (p ++ [false]) := by
      intro ha
      obtain ⟨r1, e1⟩ := nodes_prefix ha
      exact hp (q := p) e1.symm
    have pB : p ∉ nodes back (p ++ [true]) := by
      intro ha
      obtain ⟨r1, e1⟩ := nodes_prefix ha
      exact hp (q := p) e1.symm
    have zA : ∀ n ∈ nodes front (p ++ [false]), facesUnder sqrt n (openLeafs back (p ++ [true])) = [] := by
      intro n hn
      refine facesUnder_nil hB fun l hl rest e => ?_
      obtain ⟨r1, e1⟩ := nodes_prefix hn
      obtain ⟨r2, e2⟩ := openLeafs_prefix hl
      rw [e1, e2] at e
      simp at e
    have zB : ∀ n ∈ nodes back (p ++ [true]), facesUnder sqrt n (openLeafs front (p ++ [false])) = [] := by
      intro n hn
      refine facesUnder_nil hA fun l hl rest e => ?_
      obtain ⟨r1, e1⟩ := nodes_prefix hn
      obtain ⟨r2, e2⟩ := openLeafs_prefix hl
      rw [e1, e2] at e
      simp at e
    obtain ⟨s1, e1, a1, b1⟩ := ih1 hA s fun n hn => hs n (nA n hn)
    obtain ⟨s2, e2, a2, b2⟩ := ih2 hB s1 fun n hn => by
      rw [b1 n (fun ha => hAB n ha hn), hs n (nB n hn), zB n hn]; rfl
    unfold makeFaces
    rw [e1, Outcome.ok_bind, e2, Outcome.ok_bind]
    refine ⟨_, rfl, ?_, ?_⟩
    · intro n hn
      unfold openLeafs
      rw [facesUnder_append]
      rcases List.mem_cons.1 hn with rfl | hn
      · simp only [if_true]
        rw [b2 _ pB, b1 _ pA, hs _ List.mem_cons_self, List.nil_append]
        rfl
      · have hne : n ≠ p := by
          rintro rfl
          rcases List.mem_append.1 hn with hn | hn
          · exact pA hn
          · exact pB hn
        simp only [if_neg hne]
        rcases List.mem_append.1 hn with hn | hn
        · rw [b2 n (hAB n hn), a1 n hn, zA n hn, List.append_nil, List.append_nil]
        · rw [a2 n hn, zB n hn, List.nil_append]
    · intro n hn
      have h1 : n ≠ p := fun e => hn (e ▸ List.mem_cons_self)
      have h2 : n ∉ nodes front (p ++ [false]) := fun e => hn (nA n e)
      have h3 : n ∉ nodes back (p ++ [true]) := fun e => hn (nB n e)
      simp only [if_neg h1]
      unfold openLeafs
      rw [b2 n h3, b1 n h2, facesUnder_append, List.append_assoc]

/-- The faces of every node are what is seen from the open leafs, in order, of the portals on the node, once they have been
merged and cut: merging and cutting come after all the leafs below the node. -/
theorem faces_of_nodes {t : PTree K} (h : OnNodes t) :
    ∃ s, makeFaces sqrt nomerge doSubdivide merge subdivide t [] (fun _ => []) = .ok s ∧
      ∀ n ∈ nodes t [], s n =
        finish nomerge doSubdivide merge subdivide
          (((openLeafs t []).map fun l =>
            l.2.filterMap fun x => if x.2.onnode = some n then faceFromPortal sqrt x.2 x.1 else none).flatten) := by
  obtain ⟨s, e, a, _⟩ := makeFaces_ok (sqrt := sqrt) (nomerge := nomerge) (doSubdivide := doSubdivide) (merge := merge)
    (subdivide := subdivide) h (fun _ => []) (fun _ _ => rfl)
  exact ⟨s, e, a⟩

/-! ### Example: a wall between an open and a solid leaf -/

namespace Example

theorem sqrt_real : IsSqrt Real.sqrt := fun x hx => ⟨Real.sqrt_nonneg x, Real.mul_self_sqrt hx⟩

noncomputable def wall : Portal ℝ :=
  { winding := [⟨0, 0, 0⟩, ⟨0, 8, 0⟩, ⟨8, 8, 0⟩, ⟨8, 0, 0⟩]
    contents := (0, 1)
    sides := (some ⟨5, 11, 2⟩, none)
    onnode := some [] }

noncomputable def room : PTree ℝ := .node (.leaf false [(false, wall)]) (.leaf true [(true, wall)])

theorem room_on : OnNodes room := by
  intro l hl x hx _
  simp only [room, openLeafs, List.nil_append, Bool.false_eq_true, if_false, if_true, List.append_nil,
    List.mem_singleton] at hl
  subst hl
  simp only [List.mem_singleton] at hx
  subst hx
  exact ⟨[], [false], rfl, rfl, by simp⟩

example : ∃ s, makeFaces Real.sqrt true false id id room [] (fun _ => []) = .ok s ∧
    (s []).map (fun f => (f.planenum, f.texinfo, f.contents)) = [(10, 5, (0, 1))] := by
  obtain ⟨s, e, a⟩ := faces_of_nodes (sqrt := Real.sqrt) (nomerge := true) (doSubdivide := false) (merge := id)
    (subdivide := id) room_on
  refine ⟨s, e, ?_⟩
  rw [a [] (by simp [room, nodes])]
  simp [finish, room, openLeafs, wall, faceFromPortal, pick, updateSphere]

example : SeenFrom wall false ((faceFromPortal Real.sqrt wall false).get (by simp [faceFromPortal, wall, pick])) :=
  (face_seen sqrt_real wall false).2 _ (by simp)

end Example

end Verif.Surfaces
