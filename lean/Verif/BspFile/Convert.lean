import Verif.BspFile.Cast

/-!
Model of the conversion of BSP structures between the generic form and the file formats: `ConvertBSPFormat`
(common/bspfile.cc:1762-1980) and the conversions of the records (common/bspfile_q1.cc, common/bspfile_q2.cc).

A record is the list of its fields in the order of its declaration (arrays are spread out). A conversion between two
record types is a table with one entry for each field of the result.
-/

namespace Verif.BspFile

open Verif Verif.Stream

/-! ### Fields -/

/-- How one field is converted. -/
inductive Conv where
  /-- the same type, or an implicit conversion to a wider type -/
  | copy
  /-- `numeric_cast` -/
  | cast (dst src : Scalar)
  /-- `aabb_mins_cast<int16_t>` -/
  | mins
  /-- `aabb_maxs_cast<int16_t>` -/
  | maxs
  /-- `aabb_mins_cast<float>` of an `int16_t` (exact) -/
  | toFloat
  /-- `bsp29_dclipnode_t::downcast` -/
  | clipDown
  /-- `bsp29_dclipnode_t::upcast` -/
  | clipUp
  deriving DecidableEq

/-- Converting one field (include/common/numeric_cast.hh:82-132, common/bspfile_q1.cc:144-157). -/
def Conv.run : Conv → Int → Outcome Int
  | .copy, v => .ok v
  | .cast dst src, v => numericCast dst src v
  | .mins, v => minsCast v
  | .maxs, v => maxsCast v
  | .toFloat, v => .ok (f32ofInt v)
  | .clipDown, v => clipDowncast v
  | .clipUp, v => .ok (clipUpcast v)

/-- Where a field of the result comes from. -/
inductive FieldSrc where
  | fld (i : Nat) (c : Conv)
  | const (v : Int)
  deriving DecidableEq

/-- One field of the result. -/
def FieldSrc.run (r : List Int) : FieldSrc → Outcome Int
  | .fld i c => do
    let v ← Outcome.readAt r i
    c.run v
  | .const v => .ok v

/-- Evaluating a function on the elements of a list, from the first to the last. -/
def mapO {α β : Type} (f : α → Outcome β) : List α → Outcome (List β)
  | [] => .ok []
  | a :: as => do
    let b ← f a
    let bs ← mapO f as
    pure (b :: bs)

/-- Converting a record. -/
def convRecord (tbl : List FieldSrc) (r : List Int) : Outcome (List Int) := mapO (FieldSrc.run r) tbl

/-- `CopyArray` (common/bspfile.cc:1762-1805). -/
def copyArray (tbl : List FieldSrc) (rs : List (List Int)) : Outcome (List (List Int)) := mapO (convRecord tbl) rs

/-- Entries that copy fields `a`, `a + 1`, … (`n` of them). -/
def copies (a n : Nat) (c : Conv := .copy) : List FieldSrc := (List.range n).map fun k => .fld (a + k) c

/-- `n` default values. -/
def zeros (n : Nat) : List FieldSrc := List.replicate n (.const 0)

/-! ### The record types -/

/-- The families of file formats: `bsp29_t`, `bsp2rmq_t`, `bsp2_t`, `q2bsp_t`, `q2bsp_qbism_t`
(include/common/bspfile_q1.hh, include/common/bspfile_q2.hh). -/
inductive Family where
  | bsp29
  | rmq
  | bsp2
  | q2
  | qbism
  deriving DecidableEq

/-- The arrays of a BSP whose records differ between formats. -/
inductive Arr where
  | nodes
  | texinfo
  | faces
  | clipnodes
  | leafs
  | leaffaces
  | leafbrushes
  | edges
  | models
  | brushsides
  deriving DecidableEq

/-- The types of the fields of the generic records (include/common/bspfile_generic.hh:39-47, 216-369). `float` fields
hold bit patterns. -/
def genericTypes : Arr → List Scalar
  | .nodes => [i32, i32, i32] ++ List.replicate 6 f32 ++ [u32, u32]
  | .texinfo => List.replicate 8 f32 ++ [i32, i32, i32] ++ List.replicate 32 i8 ++ [i32]
  | .faces => [i64, i32, i32, i32, i32, u8, u8, u8, u8, i32]
  | .clipnodes => [i32, i32, i32]
  | .leafs => [i32, i32] ++ List.replicate 6 f32 ++ [u32, u32, u8, u8, u8, u8, i32, i32, u32, u32]
  | .leaffaces => [u32]
  | .leafbrushes => [u32]
  | .edges => [u32, u32]
  | .models => List.replicate 9 f32 ++ List.replicate 8 i32 ++ [i32, i32, i32]
  | .brushsides => [u32, i32]

/-- The types of the fields of the file records, in the order of `stream_data` (include/common/bspfile_q1.hh,
include/common/bspfile_q2.hh, common/bspfile_q1.cc, common/bspfile_q2.cc). `hexen2`: models have 8 hulls.
Arrays that a format does not have are given the generic type. -/
def fileTypes (f : Family) (hexen2 : Bool) : Arr → List Scalar
  | .nodes => match f with
    | .bsp29 => [i32, i16, i16] ++ List.replicate 6 i16 ++ [u16, u16]
    | .rmq => [i32, i32, i32] ++ List.replicate 6 i16 ++ [u32, u32]
    | .q2 => [i32, i32, i32] ++ List.replicate 6 i16 ++ [u16, u16]
    | _ => [i32, i32, i32] ++ List.replicate 6 f32 ++ [u32, u32]
  | .texinfo => match f with
    | .q2 | .qbism => List.replicate 8 f32 ++ [i32, i32] ++ List.replicate 32 i8 ++ [i32]
    | _ => List.replicate 8 f32 ++ [i32, i32]
  | .faces => match f with
    | .bsp29 => [i16, i16, i32, i16, i16, u8, u8, u8, u8, i32]
    | .q2 => [u16, i16, i32, i16, i16, u8, u8, u8, u8, i32]
    | .qbism => [u32, i32, i32, i32, i32, u8, u8, u8, u8, i32]
    | _ => [i32, i32, i32, i32, i32, u8, u8, u8, u8, i32]
  | .clipnodes => match f with
    | .bsp29 => [i32, i16, i16]
    | _ => [i32, i32, i32]
  | .leafs => match f with
    | .bsp29 => [i32, i32] ++ List.replicate 6 i16 ++ [u16, u16, u8, u8, u8, u8]
    | .rmq => [i32, i32] ++ List.replicate 6 i16 ++ [u32, u32, u8, u8, u8, u8]
    | .bsp2 => [i32, i32] ++ List.replicate 6 f32 ++ [u32, u32, u8, u8, u8, u8]
    | .q2 => [i32, i16, i16] ++ List.replicate 6 i16 ++ [u16, u16, u16, u16]
    | .qbism => [i32, i32, i32] ++ List.replicate 6 f32 ++ [u32, u32, u32, u32]
  | .leaffaces => match f with
    | .bsp29 | .q2 => [u16]
    | _ => [u32]
  | .leafbrushes => match f with
    | .q2 => [u16]
    | _ => [u32]
  | .edges => match f with
    | .bsp29 | .q2 => [u16, u16]
    | _ => [u32, u32]
  | .models => match f with
    | .q2 | .qbism => List.replicate 9 f32 ++ [i32, i32, i32]
    | _ => List.replicate 9 f32 ++ List.replicate (if hexen2 then 8 else 4) i32 ++ [i32, i32, i32]
  | .brushsides => match f with
    | .q2 => [u16, i16]
    | _ => [u32, i32]

/-! ### The conversions -/

/-- From the generic form to the file format: the converting constructors (common/bspfile_q1.cc:38-308,
common/bspfile_q2.cc:38-243) and `CopyArray`. -/
def down (f : Family) (hexen2 : Bool) : Arr → List FieldSrc
  | .nodes => match f with
    | .bsp29 => [.fld 0 .copy] ++ copies 1 2 (.cast i16 i32) ++ copies 3 3 .mins ++ copies 6 3 .maxs
        ++ copies 9 2 (.cast u16 u32)
    | .rmq => copies 0 3 ++ copies 3 3 .mins ++ copies 6 3 .maxs ++ copies 9 2
    | .q2 => copies 0 3 ++ copies 3 3 .mins ++ copies 6 3 .maxs ++ copies 9 2 (.cast u16 u32)
    | _ => copies 0 11
  | .texinfo => match f with
    | .q2 | .qbism => copies 0 8 ++ [.fld 8 .copy, .fld 10 .copy] ++ copies 11 32 ++ [.fld 43 .copy]
    | _ => copies 0 8 ++ [.fld 9 .copy, .fld 8 .copy]
  | .faces => match f with
    | .bsp29 => [.fld 0 (.cast i16 i64), .fld 1 (.cast i16 i32), .fld 2 .copy] ++ copies 3 2 (.cast i16 i32) ++ copies 5 5
    | .q2 => [.fld 0 (.cast u16 i64), .fld 1 (.cast i16 i32), .fld 2 .copy] ++ copies 3 2 (.cast i16 i32) ++ copies 5 5
    | .qbism => [.fld 0 (.cast u32 i64)] ++ copies 1 9
    | _ => [.fld 0 (.cast i32 i64)] ++ copies 1 9
  | .clipnodes => match f with
    | .bsp29 => [.fld 0 .copy, .fld 1 .clipDown, .fld 2 .clipDown]
    | _ => copies 0 3
  | .leafs => match f with
    | .bsp29 => copies 0 2 ++ copies 2 3 .mins ++ copies 5 3 .maxs ++ copies 8 2 (.cast u16 u32) ++ copies 10 4
    | .rmq => copies 0 2 ++ copies 2 3 .mins ++ copies 5 3 .maxs ++ copies 8 6
    | .bsp2 => copies 0 14
    | .q2 => [.fld 0 .copy] ++ copies 14 2 (.cast i16 i32) ++ copies 2 3 .mins ++ copies 5 3 .mins
        ++ copies 8 2 (.cast u16 u32) ++ copies 16 2 (.cast u16 u32)
    | .qbism => [.fld 0 .copy] ++ copies 14 2 ++ copies 2 6 ++ copies 8 2 ++ copies 16 2
  | .leaffaces => match f with
    | .bsp29 | .q2 => [.fld 0 (.cast u16 u32)]
    | _ => [.fld 0 .copy]
  | .leafbrushes => match f with
    | .q2 => [.fld 0 (.cast u16 u32)]
    | _ => [.fld 0 .copy]
  | .edges => match f with
    | .bsp29 | .q2 => copies 0 2 (.cast u16 u32)
    | _ => copies 0 2
  | .models => match f with
    | .q2 | .qbism => copies 0 9 ++ [.fld 9 .copy, .fld 18 .copy, .fld 19 .copy]
    | _ => if hexen2 then copies 0 20 else copies 0 9 ++ copies 9 4 (.cast i32 i32) ++ copies 17 3
  | .brushsides => match f with
    | .q2 => [.fld 0 (.cast u16 u32), .fld 1 (.cast i16 i32)]
    | _ => copies 0 2

/-- From the file format to the generic form: the conversion operators (common/bspfile_q1.cc:49-313,
common/bspfile_q2.cc:48-248) and `CopyArray`. -/
def up (f : Family) (hexen2 : Bool) : Arr → List FieldSrc
  | .nodes => match f with
    | .bsp29 => [.fld 0 .copy] ++ copies 1 2 (.cast i32 i16) ++ copies 3 6 .toFloat ++ copies 9 2
    | .rmq | .q2 => copies 0 3 ++ copies 3 6 .toFloat ++ copies 9 2
    | _ => copies 0 11
  | .texinfo => match f with
    | .q2 | .qbism => copies 0 9 ++ [.const (-1), .fld 9 .copy] ++ copies 10 32 ++ [.fld 42 .copy]
    | _ => copies 0 8 ++ [.fld 9 .copy, .fld 8 .copy] ++ zeros 33 ++ [.const (-1)]
  | .faces => copies 0 10
  | .clipnodes => match f with
    | .bsp29 => [.fld 0 .copy, .fld 1 .clipUp, .fld 2 .clipUp]
    | _ => copies 0 3
  | .leafs => match f with
    | .bsp29 | .rmq => copies 0 2 ++ copies 2 6 .toFloat ++ copies 8 6 ++ zeros 4
    | .bsp2 => copies 0 14 ++ zeros 4
    | .q2 => [.fld 0 .copy, .const (-1)] ++ copies 3 6 .toFloat ++ copies 9 2 ++ zeros 4 ++ copies 1 2 ++ copies 11 2
    | .qbism => [.fld 0 .copy, .const (-1)] ++ copies 3 6 ++ copies 9 2 ++ zeros 4 ++ copies 1 2 ++ copies 11 2
  | .leaffaces => match f with
    | .bsp29 | .q2 => [.fld 0 (.cast u32 u16)]
    | _ => [.fld 0 .copy]
  | .leafbrushes => match f with
    | .q2 => [.fld 0 (.cast u32 u16)]
    | _ => [.fld 0 .copy]
  | .edges => match f with
    | .bsp29 | .q2 => copies 0 2 (.cast u32 u16)
    | _ => copies 0 2
  | .models => match f with
    | .q2 | .qbism => copies 0 9 ++ [.fld 9 .copy] ++ zeros 8 ++ copies 10 2
    | _ => if hexen2 then copies 0 20 else copies 0 9 ++ copies 9 4 (.cast i32 i32) ++ zeros 4 ++ copies 13 3
  | .brushsides => copies 0 2

/-! ### The BSP as a whole -/

/-- A BSP: the arrays whose records depend on the format, and everything that is only copied (`rest`: entities,
planes, textures, vertexes, visibility, lighting, surfedges, brushes, areas and area portals). -/
structure Bsp (β : Type) where
  arrays : Arr → List (List Int)
  rest : β

/-- The arrays in the order in which they are converted (common/bspfile.cc:1807-1913), for Quake and Quake II. -/
def arrayOrder (f : Family) : List Arr :=
  match f with
  | .q2 | .qbism => [.nodes, .texinfo, .faces, .leafs, .leaffaces, .leafbrushes, .edges, .models, .brushsides]
  | _ => [.nodes, .texinfo, .faces, .clipnodes, .leafs, .leaffaces, .edges, .models]

/-- Converting one array after the other. Arrays that are not converted stay empty. -/
def convertArrays (tbl : Arr → List FieldSrc) (src : Arr → List (List Int)) :
    List Arr → Outcome (Arr → List (List Int))
  | [] => .ok fun _ => []
  | a :: as => do
    let x ← copyArray (tbl a) (src a)
    let g ← convertArrays tbl src as
    pure fun b => if b = a then x else g b

/-- A file format. -/
structure Version where
  family : Family
  hexen2 : Bool
  deriving DecidableEq

/-- The versions of the program: generic or one of the file formats. -/
abbrev AnyVersion := Option Version

/-- `bspdata_t`: the version and the BSP. -/
structure BspData (β : Type) where
  version : AnyVersion
  bsp : Bsp β

/-- `ConvertBSPFormat` (common/bspfile.cc:1922-1980): the result and the BSP afterwards. `std::overflow_error` is caught
when converting from the generic form. Versions that share format and hulls (Quake and Half-Life) are one version
here. -/
def convertBsp {β : Type} (d : BspData β) (target : AnyVersion) : Outcome (Bool × BspData β) :=
  if d.version = target then .ok (true, d)
  else match d.version, target with
    | some v, none => do
      let arrays ← convertArrays (up v.family v.hexen2) d.bsp.arrays (arrayOrder v.family)
      pure (true, ⟨none, ⟨arrays, d.bsp.rest⟩⟩)
    | none, some v =>
      match convertArrays (down v.family v.hexen2) d.bsp.arrays (arrayOrder v.family) with
      | .ok arrays => .ok (true, ⟨some v, ⟨arrays, d.bsp.rest⟩⟩)
      | .error => .ok (false, d)
      | .ub => .ub
    | _, _ => .ok (false, d)

end Verif.BspFile
