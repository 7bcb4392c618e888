import Verif.Prt.Model

/-!
Specification of the numbering: leafs and clusters of a tree, in the order of the tree.
-/

namespace Verif.Prt.Spec

/-- All nodes and leafs. -/
def ids {V : Type} : Tree V → List Id
  | .leaf id _ _ => [id]
  | .node id _ _ l r => id :: (ids l ++ ids r)

/-- The leafs that are not solid. -/
def openLeafs {V : Type} : Tree V → List Id
  | .leaf id solid _ => if solid then [] else [id]
  | .node _ _ _ l r => openLeafs l ++ openLeafs r

/-- The solid leafs. -/
def solidLeafs {V : Type} : Tree V → List Id
  | .leaf id solid _ => if solid then [id] else []
  | .node _ _ _ l r => solidLeafs l ++ solidLeafs r

/-- The clusters: an open leaf outside of detail is a cluster by itself; everything below the topmost detail separator
is one cluster. The first component is the leaf or the detail separator, the second one the open leafs. -/
def clusters {V : Type} : Tree V → List (Id × List Id)
  | .leaf id solid _ => if solid then [] else [(id, [id])]
  | .node id detail _ l r => if detail then [(id, openLeafs l ++ openLeafs r)] else clusters l ++ clusters r

/-- There is a detail separator. -/
def hasDetail {V : Type} : Tree V → Bool
  | .leaf _ _ _ => false
  | .node _ detail _ l r => detail || hasDetail l || hasDetail r

/-- The portals that are written, in the order of the tree: those of the clusters that vis can see through and that
start at the cluster. -/
def portals {V : Type} : Tree V → List (Portal V)
  | .leaf id solid ps => if solid then [] else ps.filter fun p => decide (p.front = id) && p.flood
  | .node id detail ps l r =>
    if detail then ps.filter fun p => decide (p.front = id) && p.flood else portals l ++ portals r

/-- No leaf has a list of portals (below a detail separator, when portals for vis are made). -/
def noPortals {V : Type} : Tree V → Prop
  | .leaf _ _ ps => ps = []
  | .node _ _ _ l r => noPortals l ∧ noPortals r

/-- The tree as portals for vis are made for it: none below detail separators (qbsp/portals.cc, `portaltype_t::VIS`). -/
def VisPortals {V : Type} : Tree V → Prop
  | .leaf _ _ _ => True
  | .node _ detail _ l r => if detail then noPortals l ∧ noPortals r else VisPortals l ∧ VisPortals r

/-- Portal `q` of the file is portal `p` of the tree: it joins the clusters (numbered in the order of the tree) of its two
ends, in the order that vis will see, and has the same points, rounded as they are when they are printed. -/
def Joins {V : Type} (t : Tree V) (snap : V → V) (p : Portal V) (q : PrtPortal V) : Prop :=
  ∃ (a b : Nat) (ga gb : Id × List Id), (clusters t)[a]? = some ga ∧ ga.1 = p.front ∧
    (clusters t)[b]? = some gb ∧ gb.1 = p.back ∧
    (if p.flip then q.leaf0 = b ∧ q.leaf1 = a else q.leaf0 = a ∧ q.leaf1 = b) ∧
    q.points = p.points.map fun v => (snap v.1, snap v.2.1, snap v.2.2)

/-- `m` is the cluster map of the tree: entry `n + 1` belongs to open leaf `n`. -/
def ClusterMap {V : Type} (t : Tree V) (m : List Int) : Prop :=
  m.length = (openLeafs t).length + 1 ∧
  ∀ (n k : Nat) (i : Id) (g : Id × List Id), (openLeafs t)[n]? = some i → (clusters t)[k]? = some g → i ∈ g.2 →
    m[n + 1]? = some (k : Int)

/-- What is required of a tree for its portal file: nodes are distinct objects, portals are those made for vis, have 1 to
64 points and end at a cluster, and the counts are less than the largest `int`. -/
structure Fits {V : Type} (t : Tree V) : Prop where
  distinct : (ids t).Nodup
  made : VisPortals t
  points : ∀ p ∈ portals t, 0 < p.points.length ∧ p.points.length ≤ 64
  ends : ∀ p ∈ portals t, ∃ g ∈ clusters t, g.1 = p.back
  leafs_fit : (openLeafs t).length < 2147483647
  clusters_fit : (clusters t).length < 2147483647
  portals_fit : (portals t).length < 2147483647

end Verif.Prt.Spec
