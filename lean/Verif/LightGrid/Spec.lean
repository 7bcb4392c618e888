import Verif.LightGrid.Model

/-!
A reader of the lump `LIGHTGRID_OCTREE`, written from the layout of the lump and not from the
code that writes it, and the meaning of the tree in it. The theorems about the light grid are
stated with this reader.
-/

namespace Verif.LightGrid

open Verif.Stream

/-- One number from the front of some bytes, and the bytes after it. -/
def num (k : Scalar) (bs : List Byte) : Option (Int × List Byte) :=
  if k.bytes ≤ bs.length then some (k.decode (bs.take k.bytes), bs.drop k.bytes) else none

/-- `n` things of the same kind. -/
def times {α : Type} (p : List Byte → Option (α × List Byte)) : Nat → List Byte → Option ((List α) × List Byte)
  | 0, bs => some ([], bs)
  | n + 1, bs => do
    let (a, bs) ← p bs
    let (l, bs) ← times p n bs
    some (a :: l, bs)

/-- A point with integer coordinates. -/
def point (bs : List Byte) : Option (P3 × List Byte) := do
  let (x, bs) ← num i32 bs
  let (y, bs) ← num i32 bs
  let (z, bs) ← num i32 bs
  some (⟨x, y, z⟩, bs)

/-- The light of one style at a grid point. -/
structure Lit where
  style : Int
  rgb : Fin 3 → Int

/-- A style number and a colour of three bytes. -/
def lit (bs : List Byte) : Option (Lit × List Byte) := do
  let (s, bs) ← num u8 bs
  let (r, bs) ← num u8 bs
  let (g, bs) ← num u8 bs
  let (b, bs) ← num u8 bs
  some (⟨s, ![r, g, b]⟩, bs)

/-- A grid point: 255 if it is occluded, otherwise the number of styles and the styles. -/
def cell (bs : List Byte) : Option ((Option (List Lit)) × List Byte) := do
  let (n, bs) ← num u8 bs
  if n = 255 then some (none, bs)
  else do
    let (l, bs) ← times lit n.toNat bs
    some (some l, bs)

/-- A leaf: its lowest grid point, its number of grid points on each axis, and the grid points;
the first coordinate varies fastest. -/
structure LeafOf where
  mins : P3
  size : P3
  cells : List (Option (List Lit))

def leaf (bs : List Byte) : Option (LeafOf × List Byte) := do
  let (m, bs) ← point bs
  let (s, bs) ← point bs
  let (cs, bs) ← times cell (s.x * s.y * s.z).toNat bs
  some (⟨m, s, cs⟩, bs)

/-- A node: the point at which it is divided, and its eight children. -/
structure NodeOf where
  div : P3
  children : List Int

def node (bs : List Byte) : Option (NodeOf × List Byte) := do
  let (p, bs) ← point bs
  let (c, bs) ← times (num u32) 8 bs
  some (⟨p, c⟩, bs)

/-- The contents of the lump. -/
structure Grid where
  dist : List Int
  size : P3
  mins : List Int
  numStyles : Int
  root : Int
  nodes : List NodeOf
  leafs : List LeafOf

/-- The whole lump. -/
def lump (bs : List Byte) : Option (Grid × List Byte) := do
  let (dist, bs) ← times (num f32) 3 bs
  let (size, bs) ← point bs
  let (mins, bs) ← times (num f32) 3 bs
  let (styles, bs) ← num u8 bs
  let (root, bs) ← num u32 bs
  let (n, bs) ← num u32 bs
  let (nodes, bs) ← times node n.toNat bs
  let (m, bs) ← num u32 bs
  let (leafs, bs) ← times leaf m.toNat bs
  some (⟨dist, size, mins, styles, root, nodes, leafs⟩, bs)

/-- The child of a node that is responsible for a point: the first coordinate decides between
the first and the last four, and so on. -/
def side (div p : P3) : Nat :=
  (if p.x < div.x then 0 else 4) + (if p.y < div.y then 0 else 2) + (if p.z < div.z then 0 else 1)

/-- What the grid says about a point, starting at a number for a node or leaf: bit 30 marks
that all is occluded, bit 31 a leaf; the others are nodes. `none` means occluded. -/
inductive Finds (g : Grid) : Int → P3 → Option (List Lit) → Prop
  | occluded {v p} (h : v.toNat.testBit 30) : Finds g v p none
  | leaf {v p l c} (h30 : ¬v.toNat.testBit 30) (h31 : v.toNat.testBit 31)
      (hl : g.leafs[v.toNat % 2 ^ 30]? = some l)
      (hx : l.mins.x ≤ p.x ∧ p.x < l.mins.x + l.size.x)
      (hy : l.mins.y ≤ p.y ∧ p.y < l.mins.y + l.size.y)
      (hz : l.mins.z ≤ p.z ∧ p.z < l.mins.z + l.size.z)
      (hc : l.cells[((p.x - l.mins.x) + l.size.x * ((p.y - l.mins.y) + l.size.y * (p.z - l.mins.z))).toNat]?
        = some c) : Finds g v p c
  | node {v p n w c} (h30 : ¬v.toNat.testBit 30) (h31 : ¬v.toNat.testBit 31)
      (hn : g.nodes[v.toNat]? = some n) (hw : n.children[side n.div p]? = some w)
      (next : Finds g w p c) : Finds g v p c

/-- The point is in the grid. -/
def InGrid (size p : P3) : Prop :=
  (0 ≤ p.x ∧ p.x < size.x) ∧ (0 ≤ p.y ∧ p.y < size.y) ∧ (0 ≤ p.z ∧ p.z < size.z)

/-- The number `b` is a byte, and no byte is closer to `q`. -/
def Nearest (b : Int) (q : ℚ) : Prop :=
  (0 ≤ b ∧ b ≤ 255) ∧ ∀ c : Int, 0 ≤ c → c ≤ 255 → |(b : ℚ) - q| ≤ |(c : ℚ) - q|

/-- What is written for a sample: its style, and the bytes next to its colour. -/
def Shows (s : Sample) (l : Lit) : Prop := l.style = s.style ∧ ∀ i, Nearest (l.rgb i) (s.color i)

/-- What the grid says about a grid point is right: occluded points are marked, and for the
others the used slots are shown, in order. -/
def Right (occluded : Bool) (s : Samples) (c : Option (List Lit)) : Prop :=
  if occluded then c = none else ∃ l, c = some l ∧ List.Forall₂ Shows (s.takeWhile (·.used)) l

end Verif.LightGrid
