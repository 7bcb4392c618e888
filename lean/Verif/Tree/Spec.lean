import Verif.Tree.Model

/-! Specification of trees, independent of how they are walked, pruned and exported. -/

namespace Verif.Tree.Spec

open Geom Contents

/-- The leaf of a tree in which a point lies, given on which side of each plane the point is. -/
def leafAt (front : Nat → Bool) : Bsp → Leaf
  | .leaf l => l
  | .node d f b => if front d.planenum then leafAt front f else leafAt front b

/-- The leafs of a tree. -/
def leafs : Bsp → List Leaf
  | .leaf l => [l]
  | .node _ f b => leafs f ++ leafs b

/-- The nodes of a tree: their data and children. -/
def nodes : Bsp → List (NodeData × Bsp × Bsp)
  | .leaf _ => []
  | .node d f b => (d, f, b) :: (nodes f ++ nodes b)

/-- Solid volume: contents with the solid bit, and in Quake also the walls of `func_detail_wall`, which become solid in
the file. -/
def SolidVolume (q2 : Bool) (c : Contents) : Prop :=
  c.getLsbD 0 = true ∨ (q2 = false ∧ c.getLsbD 2 = true ∧ c.getLsbD 14 = true)

/-- A leaf with the solid bit. -/
def SolidLeaf (t : Bsp) : Prop := ∃ l, t = .leaf l ∧ l.contents.getLsbD 0 = true

variable {K : Type} [Field K] [LinearOrder K]

/-- On which side of each plane of the map a point is, the planes being rounded as in the file. -/
def sides (rnd : K → K) (planes : List (MapPlane K)) (p : Vec K) (n : Nat) : Bool :=
  match planes[n]? with
  | some m => decide ((rndPlane rnd m.plane).distTo p ≥ 0)
  | none => false

/-- A leaf whose closed region contains the point. -/
def Touches (plane : Nat → Plane K) (p : Vec K) (l : Leaf) : Bsp → Prop
  | .leaf l' => l = l'
  | .node d f b => ((plane d.planenum).distTo p ≥ 0 ∧ Touches plane p l f) ∨
      ((plane d.planenum).distTo p ≤ 0 ∧ Touches plane p l b)

/-- The faces a leaf marks: the fragments with a number of the faces that are drawn, that are kept by `-includeskip`, or
(Quake II) that give light. -/
def marks (o : Opts) (l : Leaf) : List Nat :=
  ((l.markfaces.filter fun f => o.includeskip || !f.nodraw || (o.q2 && f.light)).map (·.fragments)).flatten.filterMap id

/-- What the file says about a leaf. -/
structure LeafRecord (o : Opts) (l : Leaf) (d : DLeaf) (faces : List Nat) : Prop where
  contents : toNative o.q2 (remap o.q2 l.contents) = .ok d.contents
  cluster : d.cluster = l.viscluster
  brushes : d.firstbrush = l.firstleafbrush ∧ d.numbrush = l.numleafbrushes
  area : o.q2 = true → d.area = if d.contents % 2 = 1 then 0 else if o.leak then 1 else l.area
  range : d.firstmark + d.nummark ≤ faces.length
  faces : (faces.drop d.firstmark).take d.nummark = marks o l

/-- The leafs that get a record of their own: all of them in Quake II, the ones without the solid bit otherwise. -/
def ownLeafs (q2 : Bool) (t : Bsp) : List Leaf := (leafs t).filter fun l => q2 || !l.contents.getLsbD 0

/-! ## Trees in a file -/

/-- The contents of a leaf of a file that block: solid and sky in Quake (-2 and -6), the lowest bit in Quake II. -/
def FileSolid (q2 : Bool) (contents : Int) : Prop :=
  (q2 = false ∧ (contents = -2 ∨ contents = -6)) ∨ (q2 = true ∧ contents % 2 = 1)

/-- A node number from which every way down ends at a leaf of the file, over nodes and planes of the file. -/
inductive Sound (dplanes : List (DPlane K)) (dnodes : List DNode) (dleafs : List DLeaf) : Int → Prop
  | leaf (n : Int) : n < 0 → (-1 - n).toNat < dleafs.length → Sound dplanes dnodes dleafs n
  | node (n : Int) (nd : DNode) : 0 ≤ n → dnodes[n.toNat]? = some nd → nd.planenum < dplanes.length →
      Sound dplanes dnodes dleafs nd.c0 → Sound dplanes dnodes dleafs nd.c1 → Sound dplanes dnodes dleafs n

/-- The ways down from a node to a leaf number, `true` for the front. A way is listed if at each of its nodes the
distance of the point from the plane of the node meets the condition of the side taken. -/
inductive Way (dplanes : List (DPlane K)) (dnodes : List DNode) (p : Vec K) (okFront okBack : K → Prop) :
    Int → List Bool → Nat → Prop
  | leaf (n : Int) : n < 0 → Way dplanes dnodes p okFront okBack n [] (-1 - n).toNat
  | front (n : Int) (nd : DNode) (pl : DPlane K) (s : List Bool) (k : Nat) : 0 ≤ n → dnodes[n.toNat]? = some nd →
      dplanes[nd.planenum]? = some pl → okFront (pl.plane.distTo p) →
      Way dplanes dnodes p okFront okBack nd.c0 s k → Way dplanes dnodes p okFront okBack n (true :: s) k
  | back (n : Int) (nd : DNode) (pl : DPlane K) (s : List Bool) (k : Nat) : 0 ≤ n → dnodes[n.toNat]? = some nd →
      dplanes[nd.planenum]? = some pl → okBack (pl.plane.distTo p) →
      Way dplanes dnodes p okFront okBack nd.c1 s k → Way dplanes dnodes p okFront okBack n (false :: s) k

end Verif.Tree.Spec
