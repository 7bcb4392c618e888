import Verif.Textures.Model

/-!
What images of textures are, in terms of the bytes of files and of pixels.
-/

namespace Verif.Textures.Spec

/-- The number at an offset of a file: four bytes without sign. -/
def u32At (f : List Byte) (o : Nat) : Nat := leDecode ((f.drop o).take 4)

/-- The number at an offset of a file: two bytes without sign. -/
def u16At (f : List Byte) (o : Nat) : Nat := leDecode ((f.drop o).take 2)

/-- The number at an offset of a file: four bytes with sign. -/
def i32At (f : List Byte) (o : Nat) : Int := if u32At f o < 2 ^ 31 then (u32At f o : Int) else (u32At f o : Int) - 2 ^ 32

/-- The colour of a byte: one of the palette, and the last one is transparent. -/
def pix (pal : List Rgb) (b : Byte) : Rgba := ⟨pal.getD b.toNat ⟨0, 0, 0⟩, if b = 255 then 0 else 255⟩

/-- The bytes of a file from an offset. -/
def bytes (f : List Byte) (o n : Nat) : List Byte := (f.drop o).take n

/-- The palette in bytes: three for a colour. -/
def palette (l : List Byte) : List Rgb :=
  (List.range 256).map fun i => ⟨l.getD (3 * i) 0, l.getD (3 * i + 1) 0, l.getD (3 * i + 2) 0⟩

/-- The palette after the smallest of the four images of a texture of Half-Life, if its place is given, it is within the file
and there are 256 colours. -/
def ownPalette (f : List Byte) : Option (List Rgb) :=
  let start := (i32At f 36).toNat + u32At f 16 / 8 * (u32At f 20 / 8)
  if 0 < i32At f 36 ∧ start + 770 ≤ f.length ∧ u16At f start = 256 then some (palette (bytes f (start + 2) 768)) else none

/-- The palette that is used. -/
def chosen (hl : Bool) (pal : List Rgb) (f : List Byte) : List Rgb := if hl then (ownPalette f).getD pal else pal

/-- The pixels fill the image. -/
def Full (t : Texture) : Prop := t.pixels.length = t.w * t.h

/-- The image repeated in both directions, for ever. -/
def tiled (t : Texture) (i j : Int) : Option Rgba := t.pixels[(i % t.w).toNat + t.w * (j % t.h).toNat]?

/-- Texture coordinates are in pixels of the size that the metadata gives, when they give one. -/
def scaled {K : Type} [Field K] (t : Texture) (size metaSize : Nat) (x : K) : K :=
  if t.mw = 0 ∨ t.mh = 0 then x else x * size / metaSize

/-- A pixel counts in the average when it is not very transparent. -/
def counts (p : Rgba) : Prop := 127 ≤ p.a.toNat

/-- A component with more saturation: its square, doubled, or scaled so that the largest one `m` is 255 where that would be too
large. -/
def vivid (m c : Nat) : Nat := if 2 * (m * m) ≤ 255 * 255 then 2 * (c * c) / 255 else 255 * (c * c) / (m * m)

/-- The pixel in a column and a row. -/
def at' (t : Texture) (x y : Nat) : Rgb := ((t.pixels[y * t.w + x]?).map (·.rgb)).getD ⟨0, 0, 0⟩

/-- Linear interpolation. -/
def lerp {K : Type} [Field K] (s a b : K) : K := a + s * (b - a)

/-- The byte is the number without its fraction. -/
def Whole {K : Type} [Field K] [LinearOrder K] (b : Byte) (x : K) : Prop := (b.toNat : K) ≤ x ∧ x < (b.toNat : K) + 1

/-- The component `c` of the image at a place between pixels. -/
def between {K : Type} [Field K] (t : Texture) (c : Rgb → Byte) (x y : Nat) (s q : K) : K :=
  lerp q (lerp s ((c (at' t x y)).toNat : K) ((c (at' t (x + 1) y)).toNat : K))
    (lerp s ((c (at' t x (y + 1))).toNat : K) ((c (at' t (x + 1) (y + 1))).toNat : K))

end Verif.Textures.Spec
