import Verif.Faces.Fragments
import Mathlib.Algebra.BigOperators.Group.List.Basic
import Mathlib.Algebra.Order.Field.Basic

/-!
What it means that polygons together have the outline of another polygon: every directed edge occurs as often as in the
polygon once pairs of opposite edges are cancelled.
-/

namespace Verif.Faces.Spec

/-- The directed edges of a polygon: each vertex with the next one, and the last one with the first one. -/
def edgesOf {V : Type} : List V → List (V × V)
  | [] => []
  | a :: l => (a :: l).zip (l ++ [a])

/-- How often the edge from `u` to `v` occurs in the polygons, less how often the opposite edge occurs. -/
def net (ps : List (List Nat)) (u v : Nat) : Int :=
  ((ps.flatMap edgesOf).count (u, v) : Int) - ((ps.flatMap edgesOf).count (v, u) : Int)

/-- The polygons have the same outline. -/
def SameOutline (ps qs : List (List Nat)) : Prop := ∀ u v, net ps u v = net qs u v

/-- Twice the signed area of polygons in the plane, where `x` and `y` are the coordinates of the vertices. -/
def area2 {K : Type} [Field K] (x y : Nat → K) (ps : List (List Nat)) : K :=
  ((ps.flatMap edgesOf).map fun e => x e.1 * y e.2 - x e.2 * y e.1).sum

/-- The polygons cover the same region: they have the same outline and the same area for all positions of the vertices,
and no vertex is invented. -/
structure SameRegion (ps qs : List (List Nat)) : Prop where
  outline : SameOutline ps qs
  area : ∀ (K : Type) [Field K] (x y : Nat → K), area2 x y ps = area2 x y qs
  verts : ∀ v, v ∈ ps.flatten → v ∈ qs.flatten

/-- The polygon is cut along chords: the edges of the pieces are the edges of the polygon, and both directions of each
chord. -/
def CutAlong (p : List Nat) (pieces : List (List Nat)) : Prop :=
  ∃ chords : List (Nat × Nat), (pieces.flatMap edgesOf).Perm (edgesOf p ++ chords ++ chords.map Prod.swap)

/-- The number of triangles that it takes to fill polygons. -/
def triangles (ps : List (List Nat)) : Nat := (ps.map fun p => p.length - 2).sum

/-- A triangulation of the part of a polygon below an edge: the edge is a side of the polygon, or the triangle on it
has its third corner at `k` and the rest is below its two other sides. -/
inductive Triang where
  | edge
  | tri (k : Nat) (left right : Triang)

/-- The triangulation is one of the part below the edge from `i` to `j`. -/
def Below : Nat → Nat → Triang → Prop
  | i, j, .edge => j = i + 1
  | i, j, .tri k l r => i < k ∧ k < j ∧ Below i k l ∧ Below k j r

/-- The triangles. -/
def Triang.tris : Nat → Nat → Triang → List Tri
  | _, _, .edge => []
  | i, j, .tri k l r => (i, k, j) :: (l.tris i k ++ r.tris k j)

/-- The total weight of triangles, where `per` is the weight of a triangle. -/
def total {K : Type} [Field K] (per : Tri → K) (ts : List Tri) : K := (ts.map per).sum

/-- The cuts that `retopologize` makes: the polygon, the seed and the end of the fan. -/
def retopoCuts (t : Tests) : Nat → List Nat → List (List Nat × Nat × Nat)
  | 0, _ => []
  | fuel + 1, input =>
    if input.length < 3 then []
    else
      match findSeed t input with
      | none => []
      | some seed =>
        let wrap := (seed + 2) % input.length
        match windLoop t input seed wrap input.length ((wrap + 1) % input.length) with
        | none => []
        | some stop =>
          if seed = stop then []
          else if stop = wrap then []
          else if stop < seed then (input, seed, stop) :: retopoCuts t fuel ((input.drop stop).take (seed + 1 - stop))
          else (input, seed, stop) :: retopoCuts t fuel (input.take (seed + 1) ++ input.drop stop)

/-- The triangle that a cut loses: when the fan passes the end of the polygon, its last triangle is left out. -/
def lostTriangle (c : List Nat × Nat × Nat) : List (List Nat) :=
  if c.2.2 < c.2.1 then [[at' c.1 (c.2.2 + c.1.length - 1), at' c.1 c.2.2, at' c.1 c.2.1]] else []

/-- The triangles that a polygon is drawn with: the fan from its first vertex. -/
def fanOf (p : List Nat) : List (Nat × Nat × Nat) :=
  (List.range (p.length - 2)).map fun x => (p.getD 0 0, p.getD (x + 1) 0, p.getD (x + 2) 0)

end Verif.Faces.Spec
