/-!
The portal graph vis works on, and what "can see" means on it.

This file is a specification: nothing in it is derived from the flow code.
-/

namespace Verif.Vis

/-- The portal graph built by `LoadPortals` (vis/vis.cc:584-676): every portal of the file gives two
directed portals, `p` and `rev p`; `dest p` is `visportal_t::leaf`, the leaf the portal leads into;
`owner p` is the leaf in whose `portals` list it was put; `out L` is `leafs[L].portals`;
`portals` is the global array in index order.  `blocks` are the 32-leaf blocks of a `leafbits_t`.
The proof fields say that the lists enumerate everything and are consistent. -/
structure Graph (Leaf Portal : Type) where
  portals : List Portal
  leafs : List Leaf
  blocks : List (List Leaf)
  owner : Portal → Leaf
  dest : Portal → Leaf
  rev : Portal → Portal
  out : Leaf → List Portal
  mem_portals : ∀ p, p ∈ portals
  nodup_portals : portals.Nodup
  mem_leafs : ∀ L, L ∈ leafs
  nodup_leafs : leafs.Nodup
  mem_out : ∀ L p, p ∈ out L ↔ owner p = L
  dest_rev : ∀ p, dest (rev p) = owner p
  owner_rev : ∀ p, owner (rev p) = dest p

variable {Leaf Portal : Type}

/-- A sequence of portals one can walk through: each one starts in the leaf the previous one leads
into. -/
def IsChain (G : Graph Leaf Portal) : List Portal → Prop
  | [] => True
  | [_] => True
  | p :: q :: r => G.owner q = G.dest p ∧ IsChain G (q :: r)

/-- The geometry, abstractly: `Stab c` says that some straight line passes through all portals of
the walk `c` in order.  Sub-walks of a stabbed walk are stabbed by the same line, the reversed line
stabs the reversed walk, and a line meets every (convex) leaf in one piece, so a stabbed walk never
enters the same leaf twice. -/
structure Sight (G : Graph Leaf Portal) where
  Stab : List Portal → Prop
  prefix_closed : ∀ a b, Stab (a ++ b) → Stab a
  suffix_closed : ∀ a b, Stab (a ++ b) → Stab b
  reversed : ∀ c, Stab c → Stab (c.reverse.map G.rev)
  no_reentry : ∀ c, IsChain G c → Stab c → (c.map G.dest).Nodup

/-- `p` sees leaf `L`: some walk starting with `p` and ending in `L` is stabbed by a line. -/
def Sees (G : Graph Leaf Portal) (S : Sight G) (p : Portal) (L : Leaf) : Prop :=
  ∃ m, IsChain G (p :: m) ∧ S.Stab (p :: m) ∧ G.dest ((p :: m).getLast (by simp)) = L

/-- Leaf `M` sees leaf `L`. -/
def LeafSees (G : Graph Leaf Portal) (S : Sight G) (M L : Leaf) : Prop :=
  ∃ p, G.owner p = M ∧ Sees G S p L

end Verif.Vis
