import Mathlib.Data.List.Sort
import Mathlib.Algebra.Field.Defs
import Verif.Common.Outcome

/-!
Model of `build_lightmap_atlas` (common/bspinfo.cc:227-474): the lightmaps of all faces are packed into images, one image for
every light style.

Simplifications: the extents of a face are its width and height (see Verif/Extents), which are positive; the products with
`lightofs` do not overflow; the square root of the number of tiles is exact. A loop that may not end has fuel, and `none`
means that the fuel was used up.
-/

namespace Verif.Atlas

/-- `face_rect` before it is packed (common/bspinfo.cc:229-237, 290-307): the number of the face, the size of its lightmap, where
its light data starts, and its styles. -/
structure Rect where
  face : Nat
  w : Nat
  h : Nat
  ofs : Int
  styles : List Nat
  deriving DecidableEq

/-- A packed `face_rect`. -/
structure Placed where
  rect : Rect
  tile : Nat
  x : Nat
  y : Nat
  deriving DecidableEq

/-- `atlas` (common/bspinfo.cc:254-258). -/
structure Tile where
  x : Nat := 0
  y : Nat := 0
  tallest : Nat := 0

/-- `atlas_size` (common/bspinfo.cc:239). -/
def atlasSize : Nat := 512

/-- The order of the faces (common/bspinfo.cc:312-322). -/
def before (a b : Rect) : Bool := if a.h = b.h then a.face ≤ b.face else a.h ≥ b.h

/-- The sorted faces (common/bspinfo.cc:312-322). No two faces are equal in the order, so every sorting gives the same list. -/
def sorted (l : List Rect) : List Rect := l.insertionSort (fun a b => before a b = true)

/-- A new row is started if the face does not fit beside the others (common/bspinfo.cc:332-336). -/
def newRow (t : Tile) (w : Nat) : Tile := if t.x + w ≥ atlasSize then { x := 0, y := t.y + t.tallest, tallest := 0 } else t

/-- The loop that places a face (common/bspinfo.cc:325-351): `i` is `current_atlas`, `t` is the tile of this number, which is
new if it did not exist. -/
def place : Nat → Nat → Tile → Rect → Option (Placed × Nat × Tile)
  | 0, _, _, _ => none
  | n + 1, i, t, r =>
    let t := newRow t r.w
    if t.y + r.h ≥ atlasSize then place n (i + 1) {} r
    else some (⟨r, i, t.x, t.y⟩, i, { x := t.x + r.w, y := t.y, tallest := max t.tallest r.h })

/-- The loop over the faces (common/bspinfo.cc:324-352): the placed faces and the number of the last tile. -/
def packFrom (fuel : Nat) : Nat → Tile → List Rect → Option (List Placed × Nat)
  | i, _, [] => some ([], i)
  | i, t, r :: rs =>
    match place fuel i t r with
    | none => none
    | some (p, i', t') =>
      match packFrom fuel i' t' rs with
      | none => none
      | some (ps, n) => some (p :: ps, n)

/-- `sqrt_count` (common/bspinfo.cc:356): the least number whose square is not less than `n`. -/
def ceilSqrt (n : Nat) : Nat := ((List.range n).find? fun k => n ≤ k * k).getD n

/-- The tiles are put beside each other (common/bspinfo.cc:359-367). -/
def spread (k : Nat) (p : Placed) : Placed :=
  { p with x := p.x + p.tile % k * atlasSize, y := p.y + p.tile / k * atlasSize }

/-- The packed faces at their final places (common/bspinfo.cc:312-367). -/
def pack (fuel : Nat) (l : List Rect) : Option (List Placed) :=
  match packFrom fuel 0 {} (sorted l) with
  | none => none
  | some (ps, n) => some (ps.map (spread (ceilSqrt (n + 1))))

/-- `trimmed_width` and `trimmed_height` (common/bspinfo.cc:357, 367-368). -/
def width (ps : List Placed) : Nat := ps.foldl (fun m p => max m (p.x + p.rect.w)) 0

def height (ps : List Placed) : Nat := ps.foldl (fun m p => max m (p.y + p.rect.h)) 0

/-- The light data: its bytes, whether it is a .lit file, and whether it has three bytes for a sample
(common/bspinfo.cc:244-252). -/
structure Data where
  bytes : List Nat
  lit : Bool
  rgb : Bool

/-- A pixel: red, green, blue and alpha. -/
abbrev Pixel := Nat × Nat × Nat × Nat

/-- The slot of a style (common/bspinfo.cc:394-401). -/
def slot (r : Rect) (style : Nat) : Option Nat := (r.styles.take 4).findIdx? (· == style)

/-- The number of bytes of a sample. -/
def Data.step (d : Data) : Nat := if d.rgb then 3 else 1

/-- Where the samples start (common/bspinfo.cc:411-412). -/
def start (d : Data) (r : Rect) (j : Nat) : Int :=
  (if d.lit then 3 else 1) * r.ofs + (r.w * r.h * d.step * j : Nat)

/-- Reading through a pointer into the light data. -/
def byte (d : Data) (i : Int) : Outcome Nat := if 0 ≤ i then Outcome.readAt d.bytes i.toNat else .ub

/-- A sample as a pixel (common/bspinfo.cc:420-428). -/
def sample (d : Data) (i : Int) : Outcome Pixel :=
  if d.rgb then do
    let r ← byte d i
    let g ← byte d (i + 1)
    let b ← byte d (i + 2)
    pure (r, g, b, 255)
  else do
    let v ← byte d i
    pure (v, v, v, 255)

/-- The loops over the samples of a face (common/bspinfo.cc:414-431): `ks` are the numbers of the samples, row by row. -/
def writeSamples (d : Data) (W : Nat) (p : Placed) (base : Int) : List Nat → List Pixel → Outcome (List Pixel)
  | [], img => .ok img
  | k :: ks, img => do
    let v ← sample d (base + (k * d.step : Nat))
    let img ← Outcome.writeAt img ((p.y + k / p.rect.w) * W + (p.x + k % p.rect.w)) v
    writeSamples d W p base ks img

/-- The loop over the faces for one style (common/bspinfo.cc:393-434): the image and `any_written`. -/
def writeFaces (d : Data) (W style : Nat) : List Placed → List Pixel × Bool → Outcome (List Pixel × Bool)
  | [], s => .ok s
  | p :: ps, s =>
    match slot p.rect style with
    | none => writeFaces d W style ps s
    | some j => do
      let img ← writeSamples d W p (start d p.rect j) (List.range (p.rect.w * p.rect.h)) s.1
      writeFaces d W style ps (img, true)

/-- The image of a style, if there is one (common/bspinfo.cc:390-442): before every style all pixels are 0. If the light data
of the file is empty, nothing is written. -/
def styleImage (d : Data) (dark : Bool) (ps : List Placed) (style : Nat) : Outcome (Option (List Pixel)) :=
  if dark then .ok none
  else do
    let r ← writeFaces d (width ps) style ps (List.replicate (width ps * height ps) (0, 0, 0, 0), false)
    pure (if r.2 then some r.1 else none)

/-- The images of the styles in the range (common/bspinfo.cc:390). -/
def images (d : Data) (dark : Bool) (ps : List Placed) : List Nat → Outcome (List (Nat × List Pixel))
  | [] => .ok []
  | s :: ss => do
    let i ← styleImage d dark ps s
    let rest ← images d dark ps ss
    pure (match i with
      | some img => (s, img) :: rest
      | none => rest)

/-- The styles for which images are made (common/bspinfo.cc:390): the bound is `INVALID_LIGHTSTYLE_OLD - 1`. -/
def styleRange : List Nat := List.range 254

/-- `style_to_lightmap_atlas` (common/bspinfo.cc:227-442). -/
def build (fuel : Nat) (d : Data) (dark : Bool) (l : List Rect) : Option (Outcome (List Placed × List (Nat × List Pixel))) :=
  if l = [] then some (.ok ([], []))
  else
    match pack fuel l with
    | none => none
    | some ps => some (do
      let is ← images d dark ps styleRange
      pure (ps, is))

/-- `ExportLightmapUVs` (common/bspinfo.cc:445-466): the texture coordinate of a corner with the lightmap coordinate `c`. -/
def uv {K : Type} [Field K] (ps : List Placed) (p : Placed) (c : K × K) : K × K :=
  ((c.1 + p.x + 1 / 2) / (width ps : K), (c.2 + p.y + 1 / 2) / (height ps : K))

end Verif.Atlas
