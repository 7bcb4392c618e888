import Verif.VisRow.Model

/-!
Model of the use that `light` makes of the visibility in a file (`-visapprox vis`): `DecompressedVisSize`, `Pvs_LeafVisible` and
`DecompressAllVis` (common/bsputils.cc:609-658, 710-758), `Mod_LeafPvs` and `CalcPvs` (light/ltface.cc:463-560), `VisCullEntity`
(light/ltface.cc:1148-1169), the test in `LightFace_Entity` (light/ltface.cc:1183-1189) and `SurfaceLight_VisCull`
(light/ltface.cc:1993-2005).

Simplifications: a leaf is its number; whether its contents are solid, sky or liquid is a part of it. `visleafs` is not negative.
`offsets` are the results of `get_bit_offset(VIS_PVS, …)`. An `unordered_map` is a list of keys and rows. Indices of elements of
vectors that are not checked are undefined behaviour if they are too large.
-/

namespace Verif.VisCull

/-- What is read of `mleaf_t` (include/common/bspfile_generic.hh). -/
structure Leaf where
  visofs : Int
  cluster : Int
  firstmark : Nat
  nummark : Nat
  solid : Bool
  sky : Bool
  liquid : Bool
  deriving DecidableEq

/-- What is read of `mbsp_t`. -/
structure Bsp where
  q2 : Bool
  visleafs : Nat
  offsets : List Int
  bits : List UInt8
  leafs : List Leaf
  leaffaces : List Nat

/-- `DecompressedVisSize` (common/bsputils.cc:609-616). -/
def visSize (b : Bsp) : Nat := if b.q2 then (b.offsets.length + 7) / 8 else (b.visleafs + 7) / 8

/-- `x >= bits.size()` with an `int` (common/bsputils.cc:637, 720): a negative number is a large one. -/
def outside (b : Bsp) (ofs : Int) : Bool := ofs < 0 || (b.bits.length : Int) ≤ ofs

/-- `pvs[i >> 3] & (1 << (i & 7))` (common/bsputils.cc:642, 656). -/
def bitAt (pvs : List UInt8) (i : Nat) : Outcome Bool :=
  Outcome.readAt pvs (i / 8) >>= fun x => .ok ((x.toNat &&& 1 <<< (i % 8)) != 0)

/-- `Pvs_LeafVisible` (common/bsputils.cc:629-658). -/
def leafVisible (b : Bsp) (pvs : List UInt8) (n : Nat) : Outcome Bool :=
  Outcome.readAt b.leafs n >>= fun l =>
    if b.q2 then
      if l.cluster < 0 then .ok false
      else
        match b.offsets[l.cluster.toNat]? with
        | none => .ok false
        | some o => if outside b o then .ok false else bitAt pvs l.cluster.toNat
    else if n = 0 then .ok false
    else if b.visleafs ≤ n - 1 then .ok false
    else bitAt pvs (n - 1)

/-- The decompressed rows by key. -/
abbrev Rows := List (Int × List UInt8)

/-- `find` in the map of rows. -/
def findRow (rows : Rows) (key : Int) : Option (List UInt8) := (rows.find? fun p => p.1 = key).map (·.2)

/-- The loop over clusters (common/bsputils.cc:719-730), from cluster `c`. -/
def allQ2 (b : Bsp) : List Int → Nat → Rows → Outcome Rows
  | [], _, rows => .ok rows
  | o :: os, c, rows =>
    if outside b o then allQ2 b os (c + 1) rows
    else VisRow.decompressRow b.bits o.toNat (visSize b) >>= fun r => allQ2 b os (c + 1) (rows ++ [((c : Int), r)])

/-- The loop over leafs (common/bsputils.cc:732-754). -/
def allQ1 (b : Bsp) : List Leaf → Rows → Outcome Rows
  | [], rows => .ok rows
  | l :: ls, rows =>
    if l.visofs < 0 then allQ1 b ls rows
    else if (findRow rows l.visofs).isSome then allQ1 b ls rows
    else if outside b l.visofs then allQ1 b ls rows
    else VisRow.decompressRow b.bits l.visofs.toNat (visSize b) >>= fun r => allQ1 b ls (rows ++ [(l.visofs, r)])

/-- `DecompressAllVis` (common/bsputils.cc:710-758). -/
def decompressAll (b : Bsp) : Outcome Rows := if b.q2 then allQ2 b b.offsets 0 [] else allQ1 b b.leafs []

/-- `Mod_LeafPvs` into a buffer (light/ltface.cc:463-487); `memcpy` of less than the size of the row. -/
def leafPvs (b : Bsp) (rows : Rows) (l : Leaf) : Outcome (List UInt8) :=
  match findRow rows (if b.q2 then l.cluster else l.visofs) with
  | none => .ok (List.replicate (visSize b) 255)
  | some r => if r.length < visSize b then .ub else .ok (r.take (visSize b))

/-- The marks of a leaf that are the face (light/ltface.cc:522-526), from mark `i` on, `n` of them: how often the leaf is pushed. -/
def marks (b : Bsp) (face : Nat) (n : Nat) : Nat → Nat → Outcome (List Nat)
  | _, 0 => .ok []
  | i, k + 1 => Outcome.readAt b.leaffaces i >>= fun f => marks b face n (i + 1) k >>= fun r => .ok (if f = face then n :: r else r)

/-- The leafs of a face of the world (light/ltface.cc:521-527), from leaf `n` on. -/
def worldLeaves (b : Bsp) (face : Nat) : List Leaf → Nat → Outcome (List Nat)
  | [], _ => .ok []
  | l :: ls, n => marks b face n l.firstmark l.nummark >>= fun m => worldLeaves b face ls (n + 1) >>= fun r => .ok (m ++ r)

/-- The leafs of a face of another model (light/ltface.cc:529-535): those of the sample points, each once. -/
def modelLeaves : List Nat → List Nat → List Nat
  | [], acc => acc
  | p :: ps, acc => modelLeaves ps (if p ∈ acc then acc else acc ++ [p])

/-- `pvs[j] |= other[j]` for all `j` (light/ltface.cc:547-549, 554-556). -/
def orRow : List UInt8 → List UInt8 → List UInt8
  | a :: as, x :: xs => (a ||| x) :: orRow as xs
  | as, _ => as

/-- The loop over the leafs (light/ltface.cc:538-557). -/
def merge (b : Bsp) (rows : Rows) : List Nat → List UInt8 → Outcome (List UInt8)
  | [], pvs => .ok pvs
  | n :: ns, pvs =>
    Outcome.readAt b.leafs n >>= fun l => leafPvs b rows l >>= fun p =>
      if l.liquid then .ok (orRow pvs (List.replicate (visSize b) 255))
      else merge b rows ns (orRow pvs p)

/-- `CalcPvs` (light/ltface.cc:506-560): the leafs of the face and the visibility; `points` are the leafs of the sample points. -/
def calcPvs (b : Bsp) (rows : Rows) (world : Bool) (face : Nat) (points : List Nat) : Outcome (List Nat × List UInt8) :=
  if b.bits = [] then .ok ([], [])
  else
    (if world then worldLeaves b face b.leafs 0 else .ok (modelLeaves points [])) >>= fun leaves =>
      merge b rows leaves (List.replicate (visSize b) 0) >>= fun pvs => .ok (leaves, pvs)

/-- `VisCullEntity` (light/ltface.cc:1148-1169). -/
def visCull (b : Bsp) (pvs : List UInt8) (leaf : Option Nat) : Outcome Bool :=
  if pvs = [] then .ok false
  else
    match leaf with
    | none => .ok false
    | some n => Outcome.readAt b.leafs n >>= fun l =>
        if l.solid || l.sky || l.liquid then .ok false else leafVisible b pvs n >>= fun v => .ok (!v)

/-- The test in `LightFace_Entity` (light/ltface.cc:1183-1189): whether the light is skipped. `vis`: the option is `vis`; `masks`: both
channel masks of the light are the default. -/
def skipsEntity (vis masks : Bool) (b : Bsp) (pvs : List UInt8) (leaf : Option Nat) : Outcome Bool :=
  if vis && masks then visCull b pvs leaf else .ok false

/-- The loop of `SurfaceLight_VisCull` (light/ltface.cc:1997-2001). -/
def anyCulled (b : Bsp) (pvs : List UInt8) : List Nat → Outcome Bool
  | [] => .ok false
  | n :: ns => visCull b pvs (some n) >>= fun c => if c then .ok true else anyCulled b pvs ns

/-- `SurfaceLight_VisCull` (light/ltface.cc:1993-2005) for a light that is a face with the given leafs. -/
def skipsSurface (vis : Bool) (b : Bsp) (pvs : Option (List UInt8)) (leaves : List Nat) : Outcome Bool :=
  match pvs with
  | some p => if vis then anyCulled b p leaves else .ok false
  | none => .ok false

end Verif.VisCull
