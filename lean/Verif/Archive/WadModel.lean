import Verif.Archive.Model

/-!
Model of `ExportWad` (bsputil/bsputil.cc:71-114), behind `bsputil --extract-textures`.
-/

namespace Verif.Archive

open Verif
open Verif.Cmdlib (Str cstr)

/-- A texture of a BSP file (`miptex_t`, include/common/bspfile_generic.hh:102-120): its name, its size, and the bytes
of the whole miptex. -/
structure Tex where
  name : Str
  width : Nat
  height : Nat
  data : List Byte
  deriving DecidableEq, Repr

/-- Which textures are exported (bsputil/bsputil.cc:79, 95, 110): `sizeof(dmiptex_t)` is 40. -/
def Tex.valid (t : Tex) : Bool := decide (40 < t.data.length)

/-- The value of `lump.size` (bsputil/bsputil.cc:99): products of `uint32_t`, then stored in an `int32_t`. -/
def lumpSize (t : Tex) : Int :=
  let v : Nat := (40 + t.width * t.height % 2 ^ 32 / 64 * 85 % 2 ^ 32) % 2 ^ 32
  if v < 2 ^ 31 then (v : Int) else (v : Int) - 2 ^ 32

/-- The four bytes of an `int32_t`. -/
def int32 (v : Int) : List Byte := leEncode 4 (v % 2 ^ 32).toNat

/-- `snprintf(lump.name.data(), 16, "%s", name)` (bsputil/bsputil.cc:101): at most 15 characters and a NUL over the
start of what the field held before. -/
def setName (old : List Byte) (name : Str) : List Byte :=
  let new := ((cstr name).take 15).map UInt8.toBitVec ++ [0]
  new ++ old.drop new.length

/-- The loop that writes the lump headers (bsputil/bsputil.cc:94-107), and its variables `filepos` and `lump.name`. -/
def wadLumps : List Tex → Int → List Byte → Outcome (List Byte)
  | [], _, _ => .ok []
  | t :: ts, filepos, name =>
    if !t.valid then wadLumps ts filepos name
    else
      let size := lumpSize t
      let name' := setName name t.name
      if filepos + size < -2 ^ 31 ∨ 2 ^ 31 ≤ filepos + size then .ub
      else do
        let rest ← wadLumps ts (filepos + size) name'
        pure (int32 filepos ++ int32 size ++ int32 size ++ [68, 0, 0, 0] ++ name' ++ rest)

/-- `ExportWad` (bsputil/bsputil.cc:71-114). -/
def exportWad (texs : List Tex) : Outcome (List Byte) := do
  let numvalid := (texs.filter Tex.valid).length
  let lumps ← wadLumps texs (12 + numvalid * 32) (List.replicate 16 0)
  pure (ascii "WAD2" ++ int32 numvalid ++ int32 12 ++ lumps ++ (texs.filter Tex.valid).flatMap (·.data))

end Verif.Archive
