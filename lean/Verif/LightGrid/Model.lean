import Mathlib.Data.Rat.Floor
import Verif.Stream.Model
import Verif.Light.Image

/-!
Model of the light grid (light/lightgrid.cc:63-448, include/light/ltface.hh:59-87 and
light/ltface.cc:2430-2473, 2760-2880): the accumulation of light at a grid point, the
octree over the grid, and the bytes of the lump `LIGHTGRID_OCTREE`.

Simplifications: colours and distances are rational instead of float (no NaN, no rounding).
The bit patterns of the floats in the header are given by a parameter `bits`. The light that
the individual light sources give at a point is a parameter. The debug file with the leafs
(lines 237-254) and the statistics other than the counts of cells are left out. Debug
assertions (lines 186-188) are off, as in a release build.
-/

namespace Verif.LightGrid

open Verif.Stream Verif.Light

/-! ### Samples -/

/-- `lightgrid_sample_t` (include/light/ltface.hh:59-63). -/
structure Sample where
  used : Bool := false
  style : Int := 0
  color : Col := fun _ => 0

/-- `lightgrid_samples_t` (include/light/ltface.hh:76-78): an array of four samples. -/
abbrev Samples := List Sample

/-- A default-initialised `lightgrid_samples_t`. -/
def noSamples : Samples := List.replicate 4 {}

/-- The loop over the slots in `lightgrid_samples_t::add` (light/ltface.cc:2784-2798); `none`
when the loop ends without a return. -/
def addToSlot (color : Col) (style : Int) : Samples → Option Samples
  | [] => none
  | s :: r =>
    if !s.used then some ({ used := true, style := style, color := color } :: r)
    else if s.style = style then some ({ s with color := fun i => s.color i + color i } :: r)
    else (addToSlot color style r).map (s :: ·)

/-- `lightgrid_sample_t::brightness` (light/ltface.cc:2826-2829). -/
def brightness (s : Sample) : ℚ := (s.color 0 + s.color 1 + s.color 2) / 3

/-- The loop for the slot with the lowest brightness (light/ltface.cc:2806-2812), from slot `i`
on, with the best slot and its brightness so far. -/
def dimmest : Samples → Nat → Nat → ℚ → Nat
  | [], _, best, _ => best
  | s :: r, i, best, b =>
    if brightness s < b then dimmest r (i + 1) i (brightness s) else dimmest r (i + 1) best b

/-- `FLT_MAX`: (2 - 2^-23) * 2^127. -/
def fltMax : ℚ := (2 ^ 24 - 1) * 2 ^ 104

/-- `lightgrid_samples_t::add` (light/ltface.cc:2782-2818). -/
def add (l : Samples) (color : Col) (style : Int) : Samples :=
  match addToSlot color style l with
  | some l' => l'
  | none =>
    l.modify (dimmest l 0 0 fltMax) fun t => { t with style := style, color := color }

/-- `lightgrid_samples_t::used_styles` (light/ltface.cc:2863-2874). -/
def usedStyles : Samples → Nat
  | [] => 0
  | s :: r => if s.used then usedStyles r + 1 else 0

/-- The settings of `LightPoint_ScaleAndClamp`. `gamma` is none for `lightmapgamma` 1, otherwise
the function `pow(c / 255, 1 / lightmapgamma) * 255`. -/
structure Scale where
  maxlight : ℚ
  rangescale : ℚ
  gamma : Option (ℚ → ℚ)

/-- `qv::max` of the components of a vector. -/
def maxOf (c : Col) : ℚ := max (max (c 0) (c 1)) (c 2)

/-- The last part of `LightPoint_ScaleAndClamp` (light/ltface.cc:2449-2463): scale, gamma and
limit. -/
def rangeAndClamp (k : Scale) (c1 : Col) : Col :=
  let c2 : Col := fun i => c1 i * k.rangescale
  let c3 : Col :=
    match k.gamma with
    | none => c2
    | some f => fun i => f (c2 i)
  if maxOf c3 > 255 then fun i => c3 i * (255 / maxOf c3) else c3

/-- `LightPoint_ScaleAndClamp` of a colour (light/ltface.cc:2430-2464). A division by zero at line
2445 makes the colour NaN, and its conversion to a byte is undefined; the model places that
outcome here. -/
def scaleAndClamp (k : Scale) (color : Col) : Outcome Col :=
  let c0 : Col := fun i => max (color i) 0
  if k.maxlight ≠ 0 ∧ maxOf c0 > k.maxlight * 2 then
    if maxOf c0 = 0 then .ub
    else .ok (rangeAndClamp k fun i => c0 i * (k.maxlight * 2 / maxOf c0))
  else .ok (rangeAndClamp k c0)

/-- `LightPoint_ScaleAndClamp` of one sample (light/ltface.cc:2468-2472). -/
def scaleSample (k : Scale) (s : Sample) : Outcome Sample :=
  if s.used then do
    let c ← scaleAndClamp k s.color
    pure { s with color := c }
  else .ok s

/-- The contributions of light at a point, added in order. -/
def addAll (contribs : List (Col × Int)) : Samples := contribs.foldl (fun l c => add l c.1 c.2) noSamples

/-- `CalcLightgridAtPoint` (light/ltface.cc:2881-2963), for the contributions of light that the
sources add at the point, in the order of the calls of `add`. -/
def calcAtPoint (k : Scale) (contribs : List (Col × Int)) : Outcome Samples :=
  each (scaleSample k) (addAll contribs)

/-! ### The grid -/

/-- `qvec3i`. -/
structure P3 where
  x : Int
  y : Int
  z : Int
  deriving DecidableEq, Repr

/-- The result of an operation on `int`: undefined when it does not fit. -/
def int (v : Int) : Outcome Int := if -2 ^ 31 ≤ v ∧ v < 2 ^ 31 then .ok v else .ub

/-- `lightgrid_raw_data` (light/lightgrid.cc:63-70), without the values that are only written
to the header. -/
structure Raw where
  size : P3
  result : List Samples
  occlusion : List Bool

/-- `get_grid_index` (light/lightgrid.cc:72). -/
def gridIndex (size p : P3) : Outcome Int := do
  let a ← int (size.x * size.y)
  let b ← int (a * p.z)
  let c ← int (size.x * p.y)
  let e ← int (b + c)
  int (e + p.x)

/-- Reading an element of a `std::vector` at an `int` index. -/
def at' {α : Type} (l : List α) (i : Int) : Outcome α :=
  if i < 0 then .ub else Outcome.readAt l i.toNat

/-- `data.occlusion[get_grid_index(p)]`. -/
def occludedAt (d : Raw) (p : P3) : Outcome Bool := do
  let i ← gridIndex d.size p
  at' d.occlusion i

/-- The range of a cell coordinate `for (int z = m; z < m + s; ++z)`. -/
def span (m s : Int) : List Int := (List.range s.toNat).map fun (k : Nat) => m + (k : Int)

/-- Bounds of a node or leaf: its lowest grid point and its number of grid points. -/
structure Box where
  mins : P3
  size : P3
  deriving DecidableEq, Repr

/-- The grid points of a box in the order of the loops of light/lightgrid.cc:136-138 and
341-343. -/
def cells (b : Box) : List P3 :=
  (span b.mins.z b.size.z).flatMap fun z =>
    (span b.mins.y b.size.y).flatMap fun y =>
      (span b.mins.x b.size.x).map fun x => ⟨x, y, z⟩

/-- `count_occluded_unoccluded` (light/lightgrid.cc:134-149). -/
def count (d : Raw) (b : Box) : Outcome (Nat × Nat) := do
  let os ← each (occludedAt d) (cells b)
  pure (os.count true, os.count false)

/-- `child_index` (light/lightgrid.cc:82-88). -/
def childIndex (div p : P3) : Nat :=
  4 * (if p.x ≥ div.x then 1 else 0) + 2 * (if p.y ≥ div.y then 1 else 0) + (if p.z ≥ div.z then 1 else 0)

/-- One axis of `get_octant` (light/lightgrid.cc:115-121): lower limit and size. -/
def halfOf (upper : Bool) (mins size div : Int) : Int × Int :=
  if upper then (div, mins + size - div) else (mins, div - mins)

/-- `get_octant` (light/lightgrid.cc:102-124). -/
def octant (i : Nat) (b : Box) (div : P3) : Box :=
  let hx := halfOf (i &&& 4 != 0) b.mins.x b.size.x div.x
  let hy := halfOf (i &&& 2 != 0) b.mins.y b.size.y div.y
  let hz := halfOf (i &&& 1 != 0) b.mins.z b.size.z div.z
  ⟨⟨hx.1, hy.1, hz.1⟩, ⟨hx.2, hy.2, hz.2⟩⟩

/-- `get_division_point` (light/lightgrid.cc:132): division of `int` rounds towards zero. -/
def divisionPoint (b : Box) : P3 :=
  ⟨b.mins.x + b.size.x.tdiv 2, b.mins.y + b.size.y.tdiv 2, b.mins.z + b.size.z.tdiv 2⟩

/-- `octree_node` (light/lightgrid.cc:161-165). -/
structure Node where
  div : P3
  children : List Nat
  deriving DecidableEq, Repr

/-- The arrays of nodes and leafs and the count `occluded_cells` (light/lightgrid.cc:172-175). -/
structure St where
  nodes : List Node := []
  leafs : List Box := []
  occludedCells : Int := 0

/-- `FLAG_LEAF` (light/lightgrid.cc:156). -/
def flagLeaf : Nat := 2 ^ 31
/-- `FLAG_OCCLUDED` (light/lightgrid.cc:157). -/
def flagOccluded : Nat := 2 ^ 30
/-- `MAX_DEPTH` (light/lightgrid.cc:151). -/
def maxDepth : Nat := 5
/-- `MIN_NODE_DIMENSION` (light/lightgrid.cc:153). -/
def minDim : Int := 4

/-- `size[0] * size[1] * size[2]`. -/
def volume (s : P3) : Int := s.x * s.y * s.z

/-- The loop over the children (light/lightgrid.cc:222-226), with `f` for the recursive call. -/
def kids (f : Box → St → Outcome (Nat × St)) (b : Box) (div : P3) : List Nat → St → Outcome (List Nat × St)
  | [], st => .ok ([], st)
  | i :: is, st => do
    let r ← f (octant i b div) st
    let rs ← kids f b div is r.2
    pure (r.1 :: rs.1, rs.2)

/-- `build_octree` (light/lightgrid.cc:184-232); the first argument is `MAX_DEPTH - depth`. The
conversion of the result to `int` and back (line 184 against line 185) keeps the value. -/
def build (d : Raw) : Nat → Box → St → Outcome (Nat × St)
  | left, b, st => do
    let c ← count d b
    if c.2 = 0 then
      pure (flagOccluded, { st with occludedCells := st.occludedCells + volume b.size })
    else if b.size.x < minDim ∨ b.size.y < minDim ∨ b.size.z < minDim ∨ left = 0 ∨ c.1 < 8 then
      pure (flagLeaf ||| st.leafs.length % 2 ^ 32, { st with leafs := st.leafs ++ [b] })
    else
      match left with
      | 0 => .ub
      | left' + 1 => do
        let r ← kids (build d left') b (divisionPoint b) (List.range 8) st
        pure (r.2.nodes.length % 2 ^ 32,
          { r.2 with nodes := r.2.nodes ++ [⟨divisionPoint b, r.1⟩] })

/-- The root and the arrays (light/lightgrid.cc:172-175, 235). -/
def buildRoot (d : Raw) : Outcome (Nat × St) := build d maxDepth ⟨⟨0, 0, 0⟩, d.size⟩ {}

/-- The count `stored_cells` (light/lightgrid.cc:257-260). -/
def storedCells (st : St) : Int := (st.leafs.map fun b => volume b.size).sum

/-! ### The bytes -/

/-- `round` of a floating-point value: half away from zero. -/
def cround (q : ℚ) : Int := if 0 ≤ q then ⌊q + 1 / 2⌋ else ⌈q - 1 / 2⌉

/-- One component of `lightgrid_sample_t::round_to_int` (light/ltface.cc:2820-2824): the
conversion to `int` is undefined for values that do not fit. -/
def roundByte (q : ℚ) : Outcome Int := do
  let v ← int (cround q)
  pure (max 0 (min v 255))

/-- The bytes of a `qvec3i`. -/
def putP3 (p : P3) : List Byte := i32.encode p.x ++ i32.encode p.y ++ i32.encode p.z

/-- The bytes of one style of a sample (light/lightgrid.cc:354-355). -/
def putSample (s : Sample) : Outcome (List Byte) := do
  let r ← roundByte (s.color 0)
  let g ← roundByte (s.color 1)
  let b ← roundByte (s.color 2)
  pure (u8.encode s.style ++ u8.encode r ++ u8.encode g ++ u8.encode b)

/-- The bytes of a grid point (light/lightgrid.cc:344-356). -/
def putCell (d : Raw) (p : P3) : Outcome (List Byte) := do
  let o ← occludedAt d p
  if o then pure (u8.encode 0xff)
  else do
    let i ← gridIndex d.size p
    let s ← at' d.result i
    let bs ← each putSample (s.take (usedStyles s))
    pure (u8.encode (usedStyles s) ++ bs.flatten)

/-- The bytes of a leaf (light/lightgrid.cc:331-360). -/
def putLeaf (d : Raw) (b : Box) : Outcome (List Byte) := do
  let bs ← each (putCell d) (cells b)
  pure (putP3 b.mins ++ putP3 b.size ++ bs.flatten)

/-- The bytes of a node (light/lightgrid.cc:322-327). -/
def putNode (n : Node) : List Byte := putP3 n.div ++ (n.children.map fun (c : Nat) => u32.encode c).flatten

/-- The values of the header: bit patterns of the floats of `grid_dist` and `grid_mins`, and
`num_styles`. -/
structure Header where
  dist : List Nat
  mins : List Nat
  numStyles : Nat

/-- The bytes of a vector of floats. -/
def putFloats (l : List Nat) : List Byte := (l.map fun (v : Nat) => f32.encode v).flatten

/-- `MakeOctreeLump` (light/lightgrid.cc:77-365). -/
def makeOctreeLump (h : Header) (d : Raw) : Outcome (List Byte) := do
  let r ← buildRoot d
  let ls ← each (putLeaf d) r.2.leafs
  pure (putFloats h.dist ++ putP3 d.size ++ putFloats h.mins ++ u8.encode h.numStyles ++
    u32.encode r.1 ++
    u32.encode (r.2.nodes.length % 2 ^ 32 : Nat) ++ (r.2.nodes.map putNode).flatten ++
    u32.encode (r.2.leafs.length % 2 ^ 32 : Nat) ++ ls.flatten)

/-! ### The whole -/

/-- Number of grid points on an axis (light/lightgrid.cc:406-407): the conversion to `int` of a
value that does not fit, of an infinity or of a NaN is undefined. -/
def axisCount (world dist : ℚ) : Outcome Int := if dist = 0 then .ub else int ⌈world / dist⌉

/-- The grid point of a sample index (light/lightgrid.cc:414-416). -/
def pointOf (size : P3) (i : Int) : P3 :=
  ⟨i.tmod size.x, (i.tdiv size.x).tmod size.y, i.tdiv (size.x * size.y)⟩

/-- `grid_mins + index * grid_dist` (light/lightgrid.cc:418). -/
def worldPoint (mins dist : Fin 3 → ℚ) (p : P3) : Fin 3 → ℚ :=
  ![mins 0 + p.x * dist 0, mins 1 + p.y * dist 1, mins 2 + p.z * dist 2]

/-- The body of the parallel loop (light/lightgrid.cc:413-427): `light` is
`FixPointAndCalcLightgrid`. -/
def sampleStep (light : (Fin 3 → ℚ) → Samples × Bool) (mins dist : Fin 3 → ℚ) (d : Raw) (i : Nat) : Raw :=
  let r := light (worldPoint mins dist (pointOf d.size i))
  { d with result := d.result.set i r.1, occlusion := d.occlusion.set i r.2 }

/-- `num_styles` (light/lightgrid.cc:430-436), as `uint8_t`. -/
def numStyles (rs : List Samples) : Nat := (rs.foldl (fun m s => max m (usedStyles s)) 0) % 256

/-- `LightGrid` (light/lightgrid.cc:387-448) with the option on, for the bounds `mins` and
`maxs`. `order` is the order in which the parallel loop runs its iterations. A negative number
of grid points makes `resize` fail with an exception. -/
def lightGrid (bits : ℚ → Nat) (light : (Fin 3 → ℚ) → Samples × Bool) (order : Nat → List Nat)
    (mins maxs dist : Fin 3 → ℚ) : Outcome (List Byte) := do
  let sx ← axisCount (maxs 0 - mins 0) (dist 0)
  let sy ← axisCount (maxs 1 - mins 1) (dist 1)
  let sz ← axisCount (maxs 2 - mins 2) (dist 2)
  let sxy ← int (sx * sy)
  let n ← int (sxy * sz)
  if n < 0 then .error
  else do
    let d0 : Raw := ⟨⟨sx, sy, sz⟩, List.replicate n.toNat noSamples, List.replicate n.toNat false⟩
    let d := (order n.toNat).foldl (sampleStep light mins dist) d0
    makeOctreeLump ⟨[bits (dist 0), bits (dist 1), bits (dist 2)], [bits (mins 0), bits (mins 1), bits (mins 2)],
      numStyles d.result⟩ d

end Verif.LightGrid
