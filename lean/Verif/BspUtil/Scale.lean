import Verif.Tree.Model
import Verif.Decompile.Model
import Verif.EntData.Dict

/-!
Model of `bsputil --scale x y z` (bsputil/bsputil.cc:597-700, 938-1180).

Simplifications: exact arithmetic; `len` stands for the length of a vector, `floor` and `ceil` for the functions. Only what the command
changes, and what is needed to read it, is in the model of a map.
-/

namespace Verif.BspUtil.Scale

open Geom Tree Decompile

variable {K : Type} [Field K] [LinearOrder K]

/-- `qvec::operator*` of two vectors (include/common/qvec.hh:229-233). -/
def smul (s v : Vec K) : Vec K := ⟨v.x * s.x, v.y * s.y, v.z * s.z⟩

/-- The number of mirrored axes (bsputil/bsputil.cc:990). -/
def flips (s : Vec K) : Nat := (if s.x < 0 then 1 else 0) + (if s.y < 0 then 1 else 0) + (if s.z < 0 then 1 else 0)

/-- `planepoints::plane` (bsputil/bsputil.cc:599-606); `qv::normalize` divides by the length. -/
def planeOf (len : Vec K → K) (p0 p1 p2 : Vec K) : Plane K :=
  let c := BrushBsp.cross (vsub p0 p1) (vsub p2 p1)
  let n := vmul (1 / len c) c
  ⟨n, dot p1 n⟩

/-- A plane after scaling (bsputil/bsputil.cc:1008-1018). -/
def scaledPlane (len : Vec K → K) (s : Vec K) (p : DPlane K) : DPlane K :=
  let pts := threePoints p.plane
  let a := smul s pts.1
  let b := smul s pts.2.1
  let c := smul s pts.2.2
  ⟨if flips s ≠ 0 then planeOf len c b a else planeOf len a b c, p.type⟩

/-- `dplane_t::operator-` (include/common/bspfile_generic.hh:195). -/
def neg (p : DPlane K) : DPlane K := ⟨negPlane p.plane, p.type⟩

/-- `planelist_t::add_plane` (bsputil/bsputil.cc:628-656): the number and the list. The map from planes to numbers has each plane of the
list under its number. -/
def addPlane (l : List (DPlane K)) (p : DPlane K) : Nat × List (DPlane K) :=
  if comp p.plane.normal p.type.axis < 0 then (l.length + 1, l ++ [neg p, p]) else (l.length, l ++ [p, neg p])

/-- `planelist_t::find_plane_nonfatal` (bsputil/bsputil.cc:658-673). `pick`: which of the planes in the box comes first. -/
def findPlane (epsN epsD : K) (pick : List Nat → Nat) (l : List (DPlane K)) (p : DPlane K) : Option Nat :=
  let hits := (l.zipIdx.filter fun e => inBox epsN epsD p.plane (keyOf e.1.plane)).map Prod.snd
  hits[pick hits]?

/-- `planelist_t::add_or_find_plane` (bsputil/bsputil.cc:688-695). -/
def addOrFind (epsN epsD : K) (pick : List Nat → Nat) (l : List (DPlane K)) (p : DPlane K) : Nat × List (DPlane K) :=
  match findPlane epsN epsD pick l p with
  | some i => (i, l)
  | none => addPlane l p

/-- The loop over the planes (bsputil/bsputil.cc:1007-1022): the new numbers, and the new list. -/
def addAll (epsN epsD : K) (pick : List Nat → Nat) : List (DPlane K) → List (DPlane K) → List Nat × List (DPlane K)
  | l, [] => ([], l)
  | l, p :: ps =>
    let r := addOrFind epsN epsD pick l p
    let rest := addAll epsN epsD pick r.2 ps
    (r.1 :: rest.1, rest.2)

/-- Bounds (`mins` and `maxs`). -/
structure Box (K : Type) where
  mins : Vec K
  maxs : Vec K
  deriving DecidableEq

/-- `qv::min` and `qv::max`. -/
def vmin (a b : Vec K) : Vec K := ⟨min a.x b.x, min a.y b.y, min a.z b.z⟩
def vmax (a b : Vec K) : Vec K := ⟨max a.x b.x, max a.y b.y, max a.z b.z⟩

/-- The bounds of a model (bsputil/bsputil.cc:1032-1036). -/
def scaleBox (s : Vec K) (b : Box K) : Box K := ⟨vmin (smul s b.mins) (smul s b.maxs), vmax (smul s b.mins) (smul s b.maxs)⟩

/-- The bounds of a node or leaf (bsputil/bsputil.cc:1040-1051, 1055-1066). -/
def scaleIntBox (floor ceil : K → K) (s : Vec K) (b : Box K) : Box K :=
  let r := scaleBox s b
  ⟨⟨floor r.mins.x, floor r.mins.y, floor r.mins.z⟩, ⟨ceil r.maxs.x, ceil r.maxs.y, ceil r.maxs.z⟩⟩

/-- A row of texture vectors (bsputil/bsputil.cc:1094-1100, 1131-1137). -/
def scaleRow (s : Vec K) (r : Vec K × K) : Vec K × K := (⟨1 / s.x * r.1.x, 1 / s.y * r.1.y, 1 / s.z * r.1.z⟩, r.2)

/-- A face: the number of its plane, and the place of its edges. -/
structure SFace where
  plane : Nat
  side : Bool
  first : Nat
  num : Nat
  deriving DecidableEq

/-- A model: origin and bounds. -/
structure SModel (K : Type) where
  origin : Vec K
  box : Box K

/-- The head of the light grid: distances, sizes and the first point (bsputil/bsputil.cc:1157-1173). -/
structure Grid (K : Type) where
  dist : Vec K
  size : Vec Int
  mins : Vec K

/-- A map. -/
structure Map (K : Type) where
  planes : List (DPlane K)
  nodes : List (DNode × Box K)
  leafs : List (DLeaf × Box K)
  clipnodes : List ClipNode
  models : List (SModel K)
  faces : List SFace
  surfedges : List Int
  edges : List (Nat × Nat)
  vertexes : List (Vec K)
  brushsides : List Nat
  texinfos : List ((Vec K × K) × (Vec K × K))
  decoupled : Option (List ((Vec K × K) × (Vec K × K)))
  grid : Option (Grid K)

/-- `plane_remap[i]`: a number that is missing gets 0 (`unordered_map::operator[]`). -/
def remapped (remap : List Nat) (i : Nat) : Nat := remap.getD i 0

/-- A node after scaling (bsputil/bsputil.cc:1068-1073). -/
def scaleNode (remap : List Nat) (n : DNode) : DNode :=
  let j := remapped remap n.planenum
  if j % 2 = 1 then { n with planenum := j - 1, c0 := n.c1, c1 := n.c0 } else { n with planenum := j }

/-- `std::reverse` of a part of the list. -/
def reversePart (l : List Int) (first num : Nat) : List Int := l.take first ++ ((l.drop first).take num).reverse ++ l.drop (first + num)

/-- The order of the edges of all faces (bsputil/bsputil.cc:992-997). -/
def reverseAll : List SFace → List Int → List Int
  | [], l => l
  | f :: fs, l => reverseAll fs (reversePart l f.first f.num)

/-- The light grid (bsputil/bsputil.cc:1157-1173). -/
def scaleGrid (s : Vec K) (g : Grid K) : Grid K :=
  let last : Vec K := ⟨g.mins.x + g.dist.x * ((g.size.x - 1 : Int) : K), g.mins.y + g.dist.y * ((g.size.y - 1 : Int) : K),
    g.mins.z + g.dist.z * ((g.size.z - 1 : Int) : K)⟩
  ⟨smul s g.dist, g.size, vmin (smul s g.mins) (smul s last)⟩

/-- What is the same for all planes: the length of a vector, tolerances, and the choice among planes that are close. -/
structure Env (K : Type) where
  len : Vec K → K
  epsN : K
  epsD : K
  pick : List Nat → Nat
  floor : K → K
  ceil : K → K

/-- `bsputil --scale` (bsputil/bsputil.cc:984-1174). Clip nodes are not changed. -/
def scale (env : Env K) (s : Vec K) (m : Map K) : Map K :=
  let r := addAll env.epsN env.epsD env.pick [] (m.planes.map (scaledPlane env.len s))
  { planes := r.2
    nodes := m.nodes.map fun n => (scaleNode r.1 n.1, scaleIntBox env.floor env.ceil s n.2)
    leafs := m.leafs.map fun l => (l.1, scaleIntBox env.floor env.ceil s l.2)
    clipnodes := m.clipnodes
    models := m.models.map fun x => ⟨smul s x.origin, scaleBox s x.box⟩
    faces := m.faces.map fun f => { f with plane := remapped r.1 f.plane }
    surfedges := if flips s % 2 = 1 then reverseAll m.faces m.surfedges else m.surfedges
    edges := m.edges
    vertexes := m.vertexes.map (smul s)
    brushsides := m.brushsides.map (remapped r.1)
    texinfos := m.texinfos.map fun t => (scaleRow s t.1, scaleRow s t.2)
    decoupled := m.decoupled.map fun l => l.map fun t => (scaleRow s t.1, scaleRow s t.2)
    grid := m.grid.map (scaleGrid s) }

/-! ### Entities -/

open EntData (Str Dict)

/-- Numbers in the values of keys: `get_vector`, `get_float` and `fmt::format`. -/
structure Text (K : Type) where
  vec : Str → Vec K
  num : Str → K
  showVec : Vec K → Str
  showNum : K → Str

def kOrigin : Str := [111, 114, 105, 103, 105, 110]
def kLip : Str := [108, 105, 112]
def kHeight : Str := [104, 101, 105, 103, 104, 116]

/-- Changing the value of a key that is there. -/
def change (k : Str) (f : Str → Str) (d : Dict) : Dict := if EntData.has d k then EntData.set d k (f (EntData.get d k)) else d

/-- The keys of an entity (bsputil/bsputil.cc:957-980). -/
def scaleEnt (t : Text K) (s : Vec K) (d : Dict) : Dict :=
  change kHeight (fun v => t.showNum (t.num v * s.z))
    (change kLip (fun v => t.showNum ((t.num v - 2) * s.z + 2))
      (change kOrigin (fun v => t.showVec (smul s (t.vec v))) d))

end Verif.BspUtil.Scale
