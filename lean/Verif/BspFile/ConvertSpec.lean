import Verif.BspFile.Convert
import Verif.BspFile.CastLemmas

/-!
Specification of format conversion, by names of fields: a field of a file record stores the field of the generic
record that has the same name.
-/

namespace Verif.BspFile.Spec

open Verif Verif.Stream

/-- `name0`, `name1`, … -/
def numbered (name : String) (n : Nat) : List String := (List.range n).map fun i => name ++ toString i

/-- The names of the fields of the generic records. -/
def genericNames : Arr → List String
  | .nodes => ["planenum", "children0", "children1", "mins0", "mins1", "mins2", "maxs0", "maxs1", "maxs2", "firstface",
      "numfaces"]
  | .texinfo => numbered "vecs" 8 ++ ["flags", "miptex", "value"] ++ numbered "texture" 32 ++ ["nexttexinfo"]
  | .faces => ["planenum", "side", "firstedge", "numedges", "texinfo", "styles0", "styles1", "styles2", "styles3",
      "lightofs"]
  | .clipnodes => ["planenum", "children0", "children1"]
  | .leafs => ["contents", "visofs", "mins0", "mins1", "mins2", "maxs0", "maxs1", "maxs2", "firstmarksurface",
      "nummarksurfaces", "ambient0", "ambient1", "ambient2", "ambient3", "cluster", "area", "firstleafbrush",
      "numleafbrushes"]
  | .leaffaces => ["face"]
  | .leafbrushes => ["brush"]
  | .edges => ["v0", "v1"]
  | .models => ["mins0", "mins1", "mins2", "maxs0", "maxs1", "maxs2", "origin0", "origin1", "origin2"]
      ++ numbered "headnode" 8 ++ ["visleafs", "firstface", "numfaces"]
  | .brushsides => ["planenum", "texinfo"]

/-- The names of the fields of the file records: Quake leafs have no cluster, area and brushes, Quake II leafs no
visibility offset and ambient levels; Quake texinfos refer to a texture number, Quake II texinfos hold its name; models
have 8 (Hexen II), 4 (Quake) or 1 (Quake II) head nodes. -/
def fileNames (f : Family) (hexen2 : Bool) : Arr → List String
  | .texinfo => match f with
    | .q2 | .qbism => numbered "vecs" 8 ++ ["flags", "value"] ++ numbered "texture" 32 ++ ["nexttexinfo"]
    | _ => numbered "vecs" 8 ++ ["miptex", "flags"]
  | .leafs => match f with
    | .q2 | .qbism => ["contents", "cluster", "area", "mins0", "mins1", "mins2", "maxs0", "maxs1", "maxs2",
        "firstmarksurface", "nummarksurfaces", "firstleafbrush", "numleafbrushes"]
    | _ => ["contents", "visofs", "mins0", "mins1", "mins2", "maxs0", "maxs1", "maxs2", "firstmarksurface",
        "nummarksurfaces", "ambient0", "ambient1", "ambient2", "ambient3"]
  | .models => match f with
    | .q2 | .qbism => ["mins0", "mins1", "mins2", "maxs0", "maxs1", "maxs2", "origin0", "origin1", "origin2",
        "headnode0", "firstface", "numfaces"]
    | _ => ["mins0", "mins1", "mins2", "maxs0", "maxs1", "maxs2", "origin0", "origin1", "origin2"]
        ++ numbered "headnode" (if hexen2 then 8 else 4) ++ ["visleafs", "firstface", "numfaces"]
  | a => genericNames a

/-- The arrays of a format: clipnodes only exist in Quake formats, brushes only in Quake II formats. -/
def has (f : Family) (a : Arr) : Bool :=
  match a with
  | .clipnodes => f = .bsp29 || f = .rmq || f = .bsp2
  | .leafbrushes | .brushsides => f = .q2 || f = .qbism
  | _ => true

/-- What a field means for its conversion. -/
inductive Kind where
  /-- a number that must be preserved -/
  | plain
  /-- the lower end of a box -/
  | low
  /-- the upper end of a box -/
  | high
  /-- the child of a clipnode, stored in 16 bits -/
  | child
  deriving DecidableEq

/-- The meaning of the fields. -/
def kindOf (a : Arr) (name : String) : Kind :=
  if name ∈ ["mins0", "mins1", "mins2"] then .low
  else if name ∈ ["maxs0", "maxs1", "maxs2"] then .high
  else if a = .clipnodes ∧ name ∈ ["children0", "children1"] then .child
  else .plain

/-- What the code does: in Quake II leafs the upper end of the box is rounded like the lower end. -/
def kindActual (f : Family) (a : Arr) (name : String) : Kind :=
  if f = .q2 ∧ a = .leafs ∧ name ∈ ["maxs0", "maxs1", "maxs2"] then .low else kindOf a name

/-- The child of a clipnode that 16 bits stand for: 0xfff1 to 0xffff are -15 to -1, the rest are numbers of nodes. -/
def childOf (w : Int) : Int := if w % 65536 > 0xfff0 then w % 65536 - 65536 else w % 65536

/-- A field of type `ft` holding `w` stores a generic field of type `gt` holding `v`: a number unchanged; the ends of a
box, when the file has integers, rounded outwards. -/
def Stored (k : Kind) (gt ft : Scalar) (v w : Int) : Prop :=
  if gt = ft then w = v
  else match k with
    | .plain => w = v
    | .low => ∃ q, f32val v = .fin q ∧ w = ⌊q⌋
    | .high => ∃ q, f32val v = .fin q ∧ w = ⌈q⌉
    | .child => childOf w = v

/-- The generic value can be stored in a field of type `ft`. -/
def Fits (k : Kind) (gt ft : Scalar) (v : Int) : Prop := ∃ w, Stored k gt ft v w ∧ ft.Holds w

/-- The generic field when the file record is converted back: the same number; the ends of a box, when the file has
integers, are the rounded ones. -/
def Restored (k : Kind) (gt ft : Scalar) (v x : Int) : Prop :=
  if gt = ft then x = v
  else match k with
    | .plain => x = v
    | .low => ∃ q, f32val v = .fin q ∧ f32val x = .fin ⌊q⌋
    | .high => ∃ q, f32val v = .fin q ∧ f32val x = .fin ⌈q⌉
    | .child => x = v

/-- The value of the field called `name`. -/
def field (names : List String) (r : List Int) (name : String) : Option Int :=
  (names.zip r).lookup name

end Verif.BspFile.Spec

namespace Verif.BspFile

open Verif Verif.Stream

/-- Record `g` can be stored: all its stored fields fit. -/
def RecordFits (kind : String → Spec.Kind) (gn : List String) (gt : List Scalar) (fn : List String) (ft : List Scalar)
    (g : List Int) : Prop :=
  ∀ (i j : Nat) (n : String) (a t : Scalar) (v : Int), gn[i]? = some n → fn[j]? = some n → gt[i]? = some a →
    ft[j]? = some t → g[i]? = some v → Spec.Fits (kind n) a t v

/-- Record `r` stores record `g`. -/
def RecordStored (kind : String → Spec.Kind) (gn : List String) (gt : List Scalar) (fn : List String) (ft : List Scalar)
    (g r : List Int) : Prop :=
  ∀ (i j : Nat) (n : String) (a t : Scalar) (v : Int), gn[i]? = some n → fn[j]? = some n → gt[i]? = some a →
    ft[j]? = some t → g[i]? = some v → ∃ w, r[j]? = some w ∧ Spec.Stored (kind n) a t v w

end Verif.BspFile
