import Verif.Emit.Edges
import Verif.Tree.ClipProps

/-! What the exported faces of a model should be. -/

namespace Verif.Emit.Spec

open Geom Verif.Tree

variable {K C : Type} [Field K] [LinearOrder K]

/-- A polygon of the map: the number of its plane, the contents in front of it, its vertices. -/
structure Polygon (C : Type) where
  planenum : Nat
  contents : C
  verts : List Nat

/-- The fragments of the faces of a node. -/
def fragments (fs : List (FaceIn C)) : List (Polygon C) :=
  fs.flatMap fun f => f.fragments.map fun vs => ⟨f.planenum, f.contents, vs⟩

/-- The polygons of a node that make a face: those with at least three vertices. -/
def drawn (fs : List (FaceIn C)) : List (Polygon C) := (fragments fs).filter fun p => 3 ≤ p.verts.length

/-- The faces of the nodes of a tree, each node before its children. -/
def nodes : FTree C → List (List (FaceIn C))
  | .leaf => []
  | .node fs a b => fs :: (nodes a ++ nodes b)

/-- The face of the file has the vertices of the polygon, in this order, and its plane. -/
structure Shows (rnd : K → K) (planes : List (MapPlane K)) (s : ESt K C) (f : MFace) (p : Polygon C) : Prop where
  count : f.numedges = p.verts.length
  verts : ∀ (i : Nat) (v : Nat), p.verts[i]? = some v → vertexAt s.edges s.surfedges f i = .ok v
  plane : ∀ m, planes[p.planenum]? = some m → facePlane s.tree.dplanes f = .ok (rndPlane rnd m.plane)

/-- The planes of the map come in opposite pairs (C77). -/
def Pairs (planes : List (MapPlane K)) : Prop :=
  ∀ (k : Nat) (a b : MapPlane K), planes[2 * k]? = some a → planes[2 * k + 1]? = some b → b.plane = negPlane a.plane

/-- How a face may use edge `e` for the side from `u` to `v` of a polygon: forwards an edge `u v`, or backwards an edge
`v u` of a polygon with the same contents. `polys` are the polygons of the model; `lo` is the first edge of the model. -/
def UseOk (o : EmitOpts C) (lo : Nat) (polys : List (Polygon C)) (edges : List (Nat × Nat)) (c : C) (e : Int)
    (u v : Nat) : Prop :=
  (∃ n : Nat, e = n ∧ lo ≤ n ∧ 0 < n ∧ edges[n]? = some (u, v)) ∨
    (∃ n : Nat, e = -(n : Int) ∧ lo ≤ n ∧ 0 < n ∧ edges[n]? = some (v, u) ∧ o.noreuse = false ∧
      ∃ q ∈ polys, (v, u) ∈ neighbours q.verts ∧ o.equals q.contents c = true)

end Verif.Emit.Spec
