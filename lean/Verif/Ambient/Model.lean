import Verif.Common.Outcome
import Mathlib.Data.Rat.Defs
import Mathlib.Algebra.Order.Ring.Rat
import Mathlib.Algebra.Order.Field.Rat
import Mathlib.Data.Rat.Floor

/-!
Model of the ambient sounds that `vis` writes into the leafs of a map of Quake (vis/soundpvs.cc:24-154).

Simplifications: numbers are rational. The box of a face is given: `SurfaceBBox` (vis/soundpvs.cc:36-52) is not modelled, nor what it reads.
-/

namespace Verif.Ambient

abbrev Str := List Char

structure Leaf where
  cluster : Int
  first : Nat
  num : Nat
  mins : Fin 3 → ℚ
  maxs : Fin 3 → ℚ
  ambient : Fin 4 → Nat

structure Face where
  texinfo : Nat
  mins : Fin 3 → ℚ
  maxs : Fin 3 → ℚ

structure Bsp where
  marks : List Nat
  faces : List Face
  miptex : List Int
  names : List Str

/-- `-noambientsky` and the like. -/
structure Opts where
  noSky : Bool
  noWater : Bool
  noSlime : Bool
  noLava : Bool

/-- What `vis` computed: the rows of bits, the bytes of a row, the number of leafs, and whether several leafs share a row. -/
structure Vis where
  bytes : List Nat
  rowBytes : Nat
  leafs : Nat
  clusters : Bool

/-- `Q_strncasecmp` with the length of the second (common/cmdlib.cc). -/
def iprefix (name pre : Str) : Bool := (name.take pre.length).map Char.toLower = pre

/-- The sound of a texture (vis/soundpvs.cc:107-119): 0 is water, 1 sky, 2 slime and 3 lava (include/common/bspfile_generic.hh:289-292). -/
def soundOf (o : Opts) (name : Str) : Option (Fin 4) :=
  if iprefix name "sky".toList && !o.noSky then some 1
  else if iprefix name "*water".toList && !o.noWater then some 0
  else if iprefix name "*04water".toList && !o.noWater then some 0
  else if iprefix name "*slime".toList && !o.noSlime then some 0
  else if iprefix name "*lava".toList && !o.noLava then some 3
  else none

/-- The distance along one axis (vis/soundpvs.cc:125-131). -/
def axisDist (l : Leaf) (f : Face) (i : Fin 3) : ℚ :=
  if f.mins i > l.maxs i then f.mins i - l.maxs i
  else if f.maxs i < l.mins i then l.mins i - f.mins i
  else 0

/-- The distance of a leaf and a face (vis/soundpvs.cc:122-136): what is computed is overwritten. -/
def distance (l : Leaf) (f : Face) : ℚ :=
  let _maxd := max (max (axisDist l f 0) (axisDist l f 1)) (axisDist l f 2)
  1 / 4

/-- One face of a leaf that is seen (vis/soundpvs.cc:103-138). -/
def hearFace (b : Bsp) (o : Opts) (l : Leaf) (m : Nat) (d : Fin 4 → ℚ) : Outcome (Fin 4 → ℚ) :=
  Outcome.readAt b.marks m >>= fun fnum =>
    match b.faces[fnum]? with
    | none => .error
    | some f => Outcome.readAt b.miptex f.texinfo >>= fun mt =>
      if mt < 0 then .ub else Outcome.readAt b.names mt.toNat >>= fun name =>
        match soundOf o name with
        | none => .ok d
        | some a => .ok (if distance l f < d a then fun j => if j = a then distance l f else d j else d)

/-- The loop over the faces of a leaf (vis/soundpvs.cc:102-139). -/
def hearFaces (b : Bsp) (o : Opts) (l : Leaf) : List Nat → (Fin 4 → ℚ) → Outcome (Fin 4 → ℚ)
  | [], d => .ok d
  | m :: t, d => hearFace b o l m d >>= fun d => hearFaces b o l t d

/-- Bit `j` of the row of a leaf (vis/soundpvs.cc:86-95). -/
def sees (v : Vis) (i : Nat) (l : Leaf) (j : Nat) : Outcome Bool :=
  let row : Int := (if v.clusters then l.cluster else (i : Int)) * v.rowBytes
  let at_ : Int := row + (j / 8 : Nat)
  if at_ < 0 then .ub else Outcome.readAt v.bytes at_.toNat >>= fun x => .ok (x.testBit (j % 8))

/-- The loop over the leafs (vis/soundpvs.cc:93-140). -/
def hearLeafs (b : Bsp) (o : Opts) (v : Vis) (leafs : List Leaf) (i : Nat) (l : Leaf) : List Nat → (Fin 4 → ℚ) → Outcome (Fin 4 → ℚ)
  | [], d => .ok d
  | j :: t, d => sees v i l j >>= fun s =>
      if s = false then hearLeafs b o v leafs i l t d
      else Outcome.readAt leafs (j + 1) >>= fun hit =>
        hearFaces b o l ((List.range hit.num).map (hit.first + ·)) d >>= fun d => hearLeafs b o v leafs i l t d

/-- The level of one sound (vis/soundpvs.cc:142-152). -/
def level (d : Fin 4 → ℚ) (j : Fin 4) : Nat :=
  let vol : ℚ := if d j < 100 then 1 else let vol := 1 - d 2 * (2 / 1000); if vol < 0 then 0 else vol
  ⌊vol * 255⌋.toNat

/-- One round of the loop, which may run beside others (vis/soundpvs.cc:75-153). -/
def calcLeaf (b : Bsp) (o : Opts) (v : Vis) (leafs : List Leaf) (i : Nat) : Outcome (List Leaf) :=
  Outcome.readAt leafs (i + 1) >>= fun l =>
    hearLeafs b o v leafs i l (List.range v.leafs) (fun _ => 1020) >>= fun d =>
      Outcome.writeAt leafs (i + 1) { l with ambient := level d }

/-- The rounds in some order. -/
def calcLeafs (b : Bsp) (o : Opts) (v : Vis) : List Nat → List Leaf → Outcome (List Leaf)
  | [], leafs => .ok leafs
  | i :: t, leafs => calcLeaf b o v leafs i >>= fun leafs => calcLeafs b o v t leafs

/-- Setting the levels of some leafs to zero (vis/soundpvs.cc:66-71). -/
def silence : List Nat → List Leaf → Outcome (List Leaf)
  | [], leafs => .ok leafs
  | i :: t, leafs => Outcome.readAt leafs (i + 1) >>= fun l =>
      Outcome.writeAt leafs (i + 1) { l with ambient := fun _ => 0 } >>= fun leafs => silence t leafs

/-- `CalcAmbientSounds` (vis/soundpvs.cc:59-154), with the order in which the rounds of the parallel loop happen. -/
def calcAmbientSounds (b : Bsp) (o : Opts) (v : Vis) (order : List Nat) (leafs : List Leaf) : Outcome (List Leaf) :=
  if o.noSky && o.noWater && o.noSlime && o.noLava then silence (List.range v.leafs) leafs
  else calcLeafs b o v order leafs

end Verif.Ambient
