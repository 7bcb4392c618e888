import Verif.BspUtil.Check

/-! Specification of `bsputil --check`, without its helpers. -/

namespace Verif.BspUtil.Spec

open Geom

variable {K : Type}

/-- A number is the index of something that exists. -/
def In (x : Int) (n : Nat) : Prop := 0 ≤ x ∧ x < n

/-- The numbers are of the types in the file, and no lump has 2^63 elements. -/
structure Loaded (b : Bsp K) : Prop where
  faces : ∀ f ∈ b.faces, (-2 ^ 63 ≤ f.planenum ∧ f.planenum < 2 ^ 63) ∧ fits f.texinfo ∧ fits f.lightofs ∧ fits f.firstedge ∧
    fits f.numedges
  leafs : ∀ l ∈ b.leafs, fits l.visofs
  sizes : b.texinfos < 2 ^ 63 ∧ b.planes.length < 2 ^ 63 ∧ b.lightdata < 2 ^ 63 ∧ b.surfedges.length < 2 ^ 63 ∧ b.visbits < 2 ^ 63

/-- The child of a node is a node or a leaf. -/
def ChildOk (b : Bsp K) (c : Int) : Prop := if 0 ≤ c then c < b.nodes.length else -c - 1 < b.leafs.length

/-- The child of a clip node is a clip node or one of the six contents of Quake. -/
def ClipChildOk (b : Bsp K) (c : Int) : Prop := In c b.clipnodes.length ∨ (-6 ≤ c ∧ c ≤ -1)

/-- The child `n` of a node is a tree of height `h`: a leaf, of height 0, or a node that exists with a tree on both sides. -/
inductive Tree (nodes : List Node) : Int → Nat → Prop
  | leaf (n : Int) : n < 0 → Tree nodes n 0
  | node (n : Int) (d : Node) (h0 h1 : Nat) : 0 ≤ n → nodes[n.toNat]? = some d → Tree nodes d.c0 h0 → Tree nodes d.c1 h1 →
      Tree nodes n (max h0 h1 + 1)

/-- The nodes `k` steps below a node, from left to right. -/
def level (nodes : List Node) (n : Int) : Nat → List Int
  | 0 => [n]
  | k + 1 => (level nodes n k).flatMap (below nodes)

/-- The corner `j` of a face is at `p`. -/
def CornerAt (b : Bsp K) (f : Face) (j : Nat) (p : Vec K) : Prop :=
  ∃ e v, 0 ≤ f.firstedge + j ∧ b.surfedges[(f.firstedge + j).toNat]? = some e ∧
    (if 0 ≤ e then (b.edges[e.toNat]?).map Prod.fst = some v else (b.edges[(-e).toNat]?).map Prod.snd = some v) ∧ b.vertexes[v]? = some p

end Verif.BspUtil.Spec
