import Verif.Textures.Model
import Verif.BspFile.Lump

/-!
Model of the textures that qbsp puts into the BSP file (qbsp/qbsp.cc:1534-1593): the search for the file
(common/imglib.cc:329-359) and the data that is stored.

Simplifications: finding a name in the directories and archives (`fs::where`) is a given function. Only the warnings are left
out.
-/

namespace Verif.Miptex

open Verif.Stream Verif.BspFile

/-- What a name stands for in the archives: whether the archive is one whose textures shall not be copied
(include/common/fs.hh:38), and the file, unless loading it fails. -/
structure Hit where
  external : Bool
  file : Option (List Byte)

/-- The settings: `-notex` and `-missing_textures_as_zero_size` (qbsp/qbsp.cc:1557, 1584). -/
structure DataOptions where
  notex : Bool
  zeroSize : Bool

/-- A texture that was found: its size, the mark of the archive and the file. Loading only the header never gives another
kind than `MIP` (common/imglib.cc:187, 341). -/
structure Loaded where
  w : Nat
  h : Nat
  external : Bool
  file : List Byte

/-- `load_texture` with `mip_only` and `meta_only` (common/imglib.cc:329-359, called at qbsp/qbsp.cc:1543). -/
def loadHeader (hl : Bool) (hit : Option Hit) : Outcome (Option Loaded) :=
  match hit with
  | some ⟨ext, some f⟩ =>
    Textures.loadMip hl [] f true >>= fun t => .ok (t.map fun t => ⟨t.w, t.h, ext, f⟩)
  | _ => .ok none

/-- The name in the header (qbsp/qbsp.cc:1569-1575): 16 bytes, the rest is 0. -/
def headerName (name : List Byte) : List Byte :=
  let s := if 16 ≤ name.length then name.take 15 else name
  s ++ List.replicate (16 - s.length) 0

/-- The data with only a header (qbsp/qbsp.cc:1567-1579, 1590-1591, common/bspfile_generic.cc:94-97). -/
def headerData (name : List Byte) (w h : Nat) : List Byte :=
  headerName name ++ u32.encode w ++ u32.encode h ++ i32.encode 0 ++ i32.encode 0 ++ i32.encode 0 ++ i32.encode 0

/-- Whether there is no texture at all in the file (qbsp/qbsp.cc:1581-1588, common/bspfile_generic.cc:198-202); `name[0]` of
an empty string is 0. -/
def isNull (o : DataOptions) (name : List Byte) (w h : Nat) : Bool :=
  name.headD 0 = 0 ∨ (o.zeroSize = false ∧ (w = 0 ∨ h = 0))

/-- The data without the images (qbsp/qbsp.cc:1565-1591). -/
def withoutImages (o : DataOptions) (name : List Byte) (w h : Nat) : Tex :=
  if isNull o name w h then none else some (headerData name w h)

/-- The body of the loop of `LoadTextureData` (qbsp/qbsp.cc:1538-1591). -/
def textureData (o : DataOptions) (hl : Bool) (find : List Byte → Option Hit) (name : List Byte) : Outcome Tex :=
  loadHeader hl (find name) >>= fun t =>
    match t with
    | none => .ok (withoutImages o name 0 0)
    | some t =>
      if o.notex = false ∧ t.external = false then .ok (some t.file) else .ok (withoutImages o name t.w t.h)

/-- `LoadTextureData` (qbsp/qbsp.cc:1535-1593): the textures of the file, for the listed names. -/
def loadTextureData (o : DataOptions) (hl : Bool) (find : List Byte → Option Hit) : List (List Byte) → Outcome (List Tex)
  | [] => .ok []
  | n :: ns => textureData o hl find n >>= fun t => loadTextureData o hl find ns >>= fun ts => .ok (t :: ts)

end Verif.Miptex
