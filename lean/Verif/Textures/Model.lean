import Verif.Stream.Model
import Mathlib.Algebra.Order.Floor.Ring
import Mathlib.Data.Rat.Floor

/-!
Model of the images of textures: loading them (common/imglib.cc:29-292), the cache that light fills from a BSP file
(common/imglib.cc:294-327, 511-653), and the places where light reads their pixels: `SampleTexture` (light/trace.cc:44-70)
and `LightFace_SampleMipTex` (light/ltface.cc:920-957).

Simplifications: file formats read by stb_image are a parameter, with what the library promises as a hypothesis of the
theorems. Names of textures and files are left out, as are the fields of the metadata besides sizes and the colour.
Arithmetic on `float` and `double` is exact. Vectors that are too large for the memory are not modelled.
-/

namespace Verif.Textures

open Verif.Stream

/-- `qvec3b`. -/
structure Rgb where
  r : Byte
  g : Byte
  b : Byte
  deriving DecidableEq, Repr

/-- `qvec4b`. -/
structure Rgba where
  rgb : Rgb
  a : Byte
  deriving DecidableEq, Repr

/-- `img::texture` with its `img::texture_meta` (include/common/imglib.hh:47-89): sizes in the metadata, the colour from
the metadata, the size of the image, its pixels and the average colour. The two scales are `Texture.scaleX` and
`Texture.scaleY`. -/
structure Texture where
  mw : Nat
  mh : Nat
  override : Option Rgb
  w : Nat
  h : Nat
  pixels : List Rgba
  average : Rgb
  deriving DecidableEq, Repr

/-- `img::texture{}` (include/common/imglib.hh:68-89). -/
def Texture.empty : Texture := ⟨0, 0, none, 0, 0, [], ⟨0, 0, 0⟩⟩

/-- A product of two `uint32_t`. -/
def mul32 (a b : Nat) : Nat := a * b % 2 ^ 32

/-- `convert_paletted_to_32_bit` (common/imglib.cc:99-108). Colours that the palette does not have are beyond the end of a
`std::vector`. -/
def convertPaletted (pal : List Rgb) : List Byte → Outcome (List Rgba)
  | [] => .ok []
  | p :: ps => do
    let c ← Outcome.readAt pal p.toNat
    let r ← convertPaletted pal ps
    pure (⟨c, if p = 255 then 0 else 255⟩ :: r)

/-- The colours of a palette in memory: `stream.read` into a `std::vector<qvec3b>`. -/
def colours : List Byte → List Rgb
  | r :: g :: b :: l => ⟨r, g, b⟩ :: colours l
  | _ => []

/-- What the buffer of `n` bytes holds after reading: it was filled with zeros, which stay when nothing is stored. -/
def readInto (s : IStream) (n : Nat) : Outcome (List Byte × IStream) := do
  let r ← s.read n
  pure (r.1.getD (List.replicate n 0), r.2)

/-- The fields of `pcx_t` up to the padding (common/imglib.cc:31-37). -/
def pcxStart : List Scalar := [i8, i8, i8, i8, u16, u16, u16, u16, u16, u16]

/-- `LoadPCXPalette` (common/imglib.cc:50-77); `none`: it returns `false`. Fields that were not read have no value. -/
def loadPcx (file : List Byte) : Outcome (Option (List Rgb)) :=
  if file = [] then .ok none
  else do
    let r ← (IStream.open file).fields pcxStart
    let s := r.2.seek (r.2.pos + 49)
    let q ← s.fields [i8, u16, u16]
    let s := q.2.seek (q.2.pos + 58)
    match r.1 with
    | some (m :: v :: e :: b :: _) =>
      if m ≠ 10 ∨ v ≠ 5 ∨ e ≠ 1 ∨ b ≠ 8 then .ok none
      else do
        let p ← readInto (s.seek ((file.length : Int) - 768)) 768
        pure (some (colours p.1))
    | _ => .ub

/-- `init_palette` (common/imglib.cc:79-97); `colormap`: the content of `pics/colormap.pcx` if there is one, `q2`: the game
is Quake II, `dflt`: what `get_default_palette` gives. -/
def initPalette (q2 : Bool) (dflt : List Rgb) (colormap : Option (List Byte)) : Outcome (List Rgb) :=
  match q2, colormap with
  | true, some file => do
    let p ← loadPcx file
    pure (p.getD dflt)
  | _, _ => .ok dflt

/-- The fields of `q2_miptex_t` (common/imglib.cc:115-126). -/
def walFields : List Scalar :=
  List.replicate 32 i8 ++ [u32, u32] ++ [u32, u32, u32, u32] ++ List.replicate 32 i8 ++ [i32, i32, i32]

/-- `load_wal` (common/imglib.cc:128-161). A header that was not read has no value; `animname` without a zero is read on
beyond its end. -/
def loadWal (pal : List Rgb) (file : List Byte) (metaOnly : Bool) : Outcome Texture := do
  let r ← (IStream.open file).fields walFields
  match r.1 with
  | none => .ub
  | some v =>
    let w := (v.getD 32 0).toNat
    let h := (v.getD 33 0).toNat
    if 0 ∉ (v.drop 38).take 32 then .ub
    else if metaOnly then .ok ⟨w, h, none, w, h, [], ⟨0, 0, 0⟩⟩
    else do
      let p ← readInto (r.2.seek (v.getD 34 0)) (mul32 w h)
      let px ← convertPaletted pal p.1
      pure ⟨w, h, none, w, h, px, ⟨0, 0, 0⟩⟩

/-- The fields of `dmiptex_t` (include/common/bspfile_generic.hh:87-96). -/
def mipFields : List Scalar := List.replicate 16 i8 ++ [u32, u32] ++ [i32, i32, i32, i32]

/-- The part of `load_mip` for the palette of Half-Life (common/imglib.cc:220-250): the palette, if there is one. -/
def mipPalette (file : List Byte) (s : IStream) (w h : Nat) (off3 : Int) : Outcome (Option (List Rgb)) :=
  let mip3 := i32.wrap (mul32 (w / 8) (h / 8))
  if off3 ≤ 0 then .ok none
  else if 2 ^ 31 ≤ off3 + mip3 then .ub
  else if (file.length : Int) < (off3 + mip3 + 770) % 2 ^ 64 then .ok none
  else do
    let n ← (s.seek (off3 + mip3)).scalar u16
    match n.1 with
    | none => .ub
    | some k =>
      if k ≠ 256 then .ok none
      else do
        let p ← readInto n.2 768
        pure (some (colours p.1))

/-- The same, for games that have no such palettes too (common/imglib.cc:220). -/
def ownPal (hl : Bool) (file : List Byte) (s : IStream) (w h : Nat) (off3 : Int) : Outcome (Option (List Rgb)) :=
  if hl then mipPalette file s w h off3 else .ok none

/-- `load_mip` (common/imglib.cc:169-256); `hl`: the game is Half-Life. -/
def loadMip (hl : Bool) (pal : List Rgb) (file : List Byte) (metaOnly : Bool) : Outcome (Option Texture) := do
  let r ← (IStream.open file).fields mipFields
  if r.2.failed then .ok none
  else
    match r.1 with
    | none => .ub
    | some v =>
      let w := (v.getD 16 0).toNat
      let h := (v.getD 17 0).toNat
      let off0 := v.getD 18 0
      let bare : Texture := ⟨w, h, none, w, h, [], ⟨0, 0, 0⟩⟩
      if metaOnly then .ok (some bare)
      else if off0 ≤ 0 then .ok (some bare)
      else if (file.length : Int) < (off0 + mul32 w h) % 2 ^ 32 then .ok (some bare)
      else do
        let p ← readInto (r.2.seek off0) (mul32 w h)
        let own ← ownPal hl file p.2 w h (v.getD 21 0)
        let px ← convertPaletted (own.getD pal) p.1
        pure (some { bare with pixels := px })

/-- What stb_image returns: the size and the colours. -/
structure Stb where
  w : Nat
  h : Nat
  data : List Rgba

/-- `load_stb` (common/imglib.cc:258-292) on what the library returned. The product of the sizes is an `int`. -/
def loadStb (i : Option Stb) (metaOnly : Bool) : Outcome (Option Texture) :=
  match i with
  | none => .ok none
  | some i =>
    let bare : Texture := ⟨i.w, i.h, none, i.w, i.h, [], ⟨0, 0, 0⟩⟩
    if metaOnly then .ok (some bare)
    else if 2 ^ 31 ≤ i.w * i.h then .ub
    else if i.data.length < i.w * i.h then .ub
    else .ok (some { bare with pixels := i.data.take (i.w * i.h) })

/-! ### The cache -/

/-- The pixels that count in `calculate_average` (common/imglib.cc:318-324). -/
def solid (px : List Rgba) : List Rgb := (px.filter fun p => decide (127 ≤ p.a.toNat)).map (·.rgb)

/-- A `double` below 256 stored in a `uint8_t`; sums and number of pixels are so small that the quotient, if it is not an
integer, is not rounded to one. -/
def mean (n : Nat) (l : List Byte) : Byte := BitVec.ofNat 8 ((l.map (·.toNat)).sum / n)

/-- `calculate_average` (common/imglib.cc:313-327). Without a pixel that counts the quotient is not a number, and the
conversion is undefined. -/
def average (px : List Rgba) : Outcome Rgb :=
  let l := solid px
  if l.length = 0 then .ub
  else .ok ⟨mean l.length (l.map (·.r)), mean l.length (l.map (·.g)), mean l.length (l.map (·.b))⟩

variable {K : Type} [Field K] [LinearOrder K] [IsStrictOrderedRing K] [FloorRing K]

/-- A number stored in a `uint8_t`: the fraction is dropped. -/
def toByte (x : K) : Outcome Byte := if -1 < x ∧ x < 256 then .ok (BitVec.ofNat 8 ⌊x⌋.toNat) else .ub

/-- `std::clamp`. -/
def clamp (x lo hi : K) : K := if x < lo then lo else if hi < x then hi else x

/-- One component of `increase_saturation` before scaling back (common/imglib.cc:514-521). -/
def boosted (c : Byte) : K := (c.toNat / 255 : K) * (c.toNat / 255) * 2

/-- The end of `increase_saturation` (common/imglib.cc:522-531). -/
def unclip (m x : K) : Outcome Byte := toByte (clamp ((if 1 < m then x / m else x) * 255) 0 255)

/-- `increase_saturation` (common/imglib.cc:511-532). -/
def saturate (K : Type) [Field K] [LinearOrder K] [IsStrictOrderedRing K] [FloorRing K] (c : Rgb) : Outcome Rgb := do
  let m : K := max (max (boosted c.r) (boosted c.g)) (boosted c.b)
  let r ← unclip m (boosted c.r)
  let g ← unclip m (boosted c.g)
  let b ← unclip m (boosted c.b)
  pure ⟨r, g, b⟩

/-- One component of `mix` (include/common/mathlib.hh:116-119). -/
def mixByte (f : K) (a b : Byte) : Outcome Byte := toByte (a.toNat * (1 - f) + b.toNat * f)

/-- The average colour of a texture (common/imglib.cc:562-571, 637-646). -/
def averageColor (boost : K) (override : Option Rgb) (px : List Rgba) : Outcome Rgb :=
  match override with
  | some c => .ok c
  | none => do
    let a ← average px
    if 0 < boost then do
      let s ← saturate K a
      let r ← mixByte boost a.r s.r
      let g ← mixByte boost a.g s.g
      let b ← mixByte boost a.b s.b
      pure ⟨r, g, b⟩
    else pure a

/-- The texture in the BSP file, when there is more than a dummy (common/imglib.cc:619-623). -/
def embedded (hl : Bool) (pal : List Rgb) (data : List Byte) : Outcome (Option Texture) :=
  if 40 ≤ data.length then loadMip hl pal data false else .ok none

/-- The replacement texture (common/imglib.cc:626-630). -/
def replaced (tex : Texture) (repl : Option Texture) : Texture :=
  match repl with
  | some t => { tex with w := t.w, h := t.h, pixels := t.pixels }
  | none => tex

/-- The body of the loop of `ConvertTextures` (common/imglib.cc:603-653), for a texture that is not yet in the cache: what
the entry is in the end. `data` is the texture in the BSP file, `repl` what `load_texture` found. -/
def convertTexture (hl : Bool) (pal : List Rgb) (boost : K) (data : List Byte) (repl : Option Texture) :
    Outcome Texture := do
  let own ← embedded hl pal data
  let tex := replaced (own.getD .empty) repl
  if tex.pixels.length = 0 ∨ tex.w = 0 ∨ tex.mw = 0 then .ok tex
  else do
    let c ← averageColor boost tex.override tex.pixels
    pure { tex with average := c }

/-- What `load_texture_meta` found: sizes and colour. -/
structure Meta where
  w : Nat
  h : Nat
  override : Option Rgb

/-- `AddTextureName` (common/imglib.cc:535-577), for a texture that is not yet in the cache: what the entry is in the end. -/
def addTexture (boost : K) (found : Option Texture) (m : Option Meta) : Outcome Texture := do
  let tex := found.getD .empty
  let tex := match m with
    | some m => { tex with mw := m.w, mh := m.h, override := m.override }
    | none => tex
  let c ← averageColor boost tex.override tex.pixels
  pure { tex with average := c }

/-- `width_scale` (common/imglib.cc:573-576, 648-651). In `ConvertTextures` it is only set for a texture with pixels; it is
used for no other. -/
def Texture.scaleX (t : Texture) : K := if t.mw ≠ 0 ∧ t.mh ≠ 0 then (t.w : K) / (t.mw : K) else 1

/-- `height_scale` (common/imglib.cc:573-576, 648-651). -/
def Texture.scaleY (t : Texture) : K := if t.mw ≠ 0 ∧ t.mh ≠ 0 then (t.h : K) / (t.mh : K) else 1

/-! ### Sampling -/

/-- The conversion of a number to `uint32_t`. -/
def toU32 (x : K) : Outcome Nat := if -1 < x ∧ x < 2 ^ 32 then .ok ⌊x⌋.toNat else .ub

/-- `%` of two `uint32_t`. -/
def mod32 (a b : Nat) : Outcome Nat := if b = 0 then .ub else .ok (a % b)

/-- `clamp_texcoord` (light/trace.cc:44-53). -/
def clampTexcoord (x : K) (width : Nat) : Outcome Nat :=
  if 0 ≤ x then do
    let n ← toU32 x
    mod32 n width
  else do
    let n ← toU32 (⌈|x|⌉ : K)
    let m ← mod32 n width
    mod32 (width - m) width

/-- `SampleTexture` (light/trace.cc:55-70), from the texture coordinates on. `none`: there is no such texture. Reading
beyond the end of a `std::vector` is undefined. -/
def sampleTexture (t : Option Texture) (u v : K) : Outcome Rgba :=
  match t with
  | none => .ok ⟨⟨0, 0, 0⟩, 0⟩
  | some t =>
    if t.w = 0 then .ok ⟨⟨0, 0, 0⟩, 0⟩
    else do
      let x ← clampTexcoord (u * t.scaleX) t.w
      let y ← clampTexcoord (v * t.scaleY) t.h
      Outcome.readAt t.pixels ((mul32 t.w y + x) % 2 ^ 32)

/-- The conversion of a number to `int`. -/
def toInt (x : K) : Outcome Nat := if 0 ≤ x ∧ x < 2 ^ 31 then .ok ⌊x⌋.toNat else .ub

/-- One pixel of `LightFace_SampleMipTex` (light/ltface.cc:944-950). -/
def mipPixel (t : Texture) (x y : Nat) : Outcome Rgba := do
  let a ← mod32 x t.mw
  let b ← mod32 y t.mh
  Outcome.readAt t.pixels ((a + mul32 t.mw b) % 2 ^ 32)

/-- The weighted sum of a component (light/ltface.cc:952-953). -/
def blend (s t : K) (a b c d : Byte) : K :=
  (a.toNat * ((1 - s) * (1 - t)) + b.toNat * (s * (1 - t)) + c.toNat * ((1 - s) * t) + d.toNat * (s * t)) * 2

/-- `LightFace_SampleMipTex` (light/ltface.cc:920-957), from the projected point on; `c0` and `c1` are the coordinates
`coord`, `seen` what `Matrix4x4_CM_Project` returned. `none`: it returns `false`. A size of 0 would wrap around to 2^32-1. -/
def sampleMipTex (t : Texture) (seen : Bool) (c0 c1 : K) : Outcome (Option (K × K × K)) :=
  if seen = false ∨ c0 ≤ 0 ∨ 1 ≤ c0 ∨ c1 ≤ 0 ∨ 1 ≤ c1 then .ok none
  else do
    let sf := c0 * (((t.mw + (2 ^ 32 - 1)) % 2 ^ 32 : Nat) : K)
    let sb ← toInt sf
    let tf := (1 - c1) * (((t.mh + (2 ^ 32 - 1)) % 2 ^ 32 : Nat) : K)
    let tb ← toInt tf
    let p0 ← mipPixel t sb tb
    let p1 ← mipPixel t (sb + 1) tb
    let p2 ← mipPixel t sb (tb + 1)
    let p3 ← mipPixel t (sb + 1) (tb + 1)
    let s := sf - sb
    let q := tf - tb
    pure (some (blend s q p0.rgb.r p1.rgb.r p2.rgb.r p3.rgb.r, blend s q p0.rgb.g p1.rgb.g p2.rgb.g p3.rgb.g,
      blend s q p0.rgb.b p1.rgb.b p2.rgb.b p3.rgb.b))

end Verif.Textures
