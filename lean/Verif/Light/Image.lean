import Mathlib.Algebra.Order.Field.Rat
import Mathlib.Data.Fin.VecNotation
import Verif.Light.Model

/-!
Model of the treatment of a single lightmap in light/write.cc:120-580: scaling of the
computed light, filling of the samples that see nothing, blur, downsampling, and the
conversion to bytes.

Simplifications: colours are rational instead of float; `alpha` is a Boolean, because it is
only ever 0 or 1 (lines 128, 139, 208, 212, 260, 296, 355, 359); `pow` and the normalisation
of directions are parameters; all three kinds of bytes are produced, also when the program
leaves out one of them because its array is empty.
-/

namespace Verif.Light

/-- `qvec3f` as a colour. -/
abbrev Col := Fin 3 → ℚ

/-- A sample of an image: the first three components of a `qvec4f`, and whether the fourth is
1. -/
structure Px where
  col : Col
  a : Bool

/-- `std::vector::at`: an exception for an index outside of the vector. -/
def pixel {α : Type} (img : List α) (i : Nat) : Outcome α :=
  match img[i]? with
  | some p => .ok p
  | none => .error

/-- A computation for every element of a list, in order. -/
def each {α β : Type} (f : α → Outcome β) : List α → Outcome (List β)
  | [] => .ok []
  | x :: l => do
    let y ← f x
    let ys ← each f l
    pure (y :: ys)

/-- The sum of colours divided by their number. -/
def mean (l : List Px) : Col := fun c => (l.map (fun p => p.col c)).sum / l.length

/-- The loops `for y … for x …` over an image. -/
def coords (w h : Nat) : List (Nat × Nat) :=
  (List.range h).flatMap fun y => (List.range w).map fun x => (x, y)

/-- The index of a sample, if the coordinates are inside the image: light/write.cc:183-191
and 245-250. -/
def cell (w h : Nat) (x y : Int) : Option Nat :=
  if x < 0 ∨ x ≥ w then none
  else if y < 0 ∨ y ≥ h then none
  else some (y * w + x).toNat

/-- The kernel of `IntegerDownsampleImage`, light/write.cc:175-191. -/
def block (w h factor : Nat) (p : Nat × Nat) : List Nat :=
  (List.range factor).flatMap fun (y0 : Nat) => (List.range factor).filterMap fun (x0 : Nat) =>
    cell w h (p.1 * factor + x0) (p.2 * factor + y0)

/-- The average of the visible samples of a kernel, or of all of them if none is visible:
light/write.cc:193-214, 340-361. -/
def weigh (ns : List Px) : Px :=
  if ns.filter Px.a ≠ [] then ⟨mean (ns.filter Px.a), true⟩ else ⟨mean ns, false⟩

/-- `IntegerDownsampleImage`, light/write.cc:145-219. -/
def downsample (w h factor : Nat) (img : List Px) : Outcome (List Px) :=
  if factor < 1 then .error
  else if factor = 1 then .ok img
  else each (fun p => do
    let ns ← each (pixel img) (block w h factor p)
    pure (weigh ns)) (coords (w / factor) (h / factor))

/-- The sample itself and its eight neighbours, light/write.cc:240-250. -/
def around (w h : Nat) (p : Nat × Nat) : List Nat :=
  ([-1, 0, 1] : List Int).flatMap fun y0 => ([-1, 0, 1] : List Int).filterMap fun x0 =>
    cell w h (p.1 + x0) (p.2 + y0)

/-- The body of the loop of `FloodFillTransparent` for one sample, light/write.cc:232-269:
the image and the number of samples that could not be filled. -/
def fillOne (w h : Nat) (st : List Px × Nat) (p : Nat × Nat) : Outcome (List Px × Nat) := do
  let i := p.2 * w + p.1
  let s ← pixel st.1 i
  if s.a then pure st
  else do
    let ns ← each (pixel st.1) (around w h p)
    let op := ns.filter Px.a
    if op ≠ [] then pure (st.1.set i ⟨mean op, true⟩, st.2)
    else pure (st.1, st.2 + 1)

/-- One round of `FloodFillTransparent` over the samples `l`, light/write.cc:230-271. -/
def fillRound (w h : Nat) : List Px × Nat → List (Nat × Nat) → Outcome (List Px × Nat)
  | st, [] => .ok st
  | st, p :: l => do
    let st' ← fillOne w h st p
    fillRound w h st' l

/-- `FloodFillTransparent`, light/write.cc:221-284.  The loop has no bound in the program;
`none` means that it has not ended after `n` rounds. -/
def flood (w h : Nat) : Nat → List Px → Option (Outcome (List Px))
  | 0, _ => none
  | n + 1, img =>
    match fillRound w h (img, 0) (coords w h) with
    | .ok (img', u) =>
      if u = img.length then some (.ok img')
      else if u = 0 then some (.ok img')
      else flood w h n img'
    | .error => some .error
    | .ub => some .ub

/-- `HighlightSeams`, light/write.cc:286-302, for an image of the given size. -/
def highlight (img : List Px) : List Px :=
  img.map fun p => if p.a then p else ⟨![255, 0, 0], true⟩

/-- `std::clamp(v, 0, n - 1)`. -/
def clampTo (n : Nat) (v : Int) : Nat := (max 0 (min v (n - 1 : Int))).toNat

/-- `-radius … radius`. -/
def spread (radius : Nat) : List Int :=
  (List.range (2 * radius + 1)).map fun (k : Nat) => (k : Int) - radius

/-- The kernel of `BoxBlurImage`, light/write.cc:318-338. -/
def box (w h radius : Nat) (p : Nat × Nat) : List Nat :=
  (spread radius).flatMap fun y0 => (spread radius).map fun x0 =>
    clampTo h (p.2 + y0) * w + clampTo w (p.1 + x0)

/-- `BoxBlurImage`, light/write.cc:304-366, for an image of the given size. -/
def blur (w h radius : Nat) (img : List Px) : Outcome (List Px) :=
  each (fun p => do
    let ns ← each (pixel img) (box w h radius p)
    pure (weigh ns)) (coords w h)

/-- The conversion of a float to `uint8_t`: it is truncated, and it is undefined if the result
does not fit. -/
def toByte (q : ℚ) : Outcome UInt8 :=
  if -1 < q ∧ q < 256 then .ok (UInt8.ofNat q.floor.toNat) else .ub

/-- The greyscale value, light/write.cc:432-437. -/
def greyOf (c : Col) : Outcome UInt8 :=
  let light := max (max (c 0) (c 1)) (c 2)
  let light := if light < 0 then 0 else light
  let light := if light > 255 then 255 else light
  toByte light

/-- A component of a direction as a byte, light/write.cc:451-456. -/
def dirByte (t : ℚ) : UInt8 :=
  let v := ((t + 1) * 128).floor
  if v > 255 then 255 else UInt8.ofNat v.toNat

/-- The options of the treatment of an image: `-extra`, `-soft`, `-highlightseams`, and the
projection of a direction to the axes of the face with its normalisation (`light/write.cc`
442-449). -/
structure ImgCfg where
  extra : Nat
  soft : Int
  seams : Bool
  unit : Col → Col

/-- The index of the sample that is written at `(s, t)`, light/write.cc:411-413. -/
def sampleIndex (aw ah ow oh : Nat) (p : Nat × Nat) : Nat :=
  (p.2 * ah / oh) * aw + p.1 * aw / ow

/-- The bytes of the greyscale, the coloured and the direction data from the images of
colours and directions, light/write.cc:405-459. -/
def emit (unit : Col → Col) (aw ah ow oh : Nat) (col dir : List Px) : Outcome Image := do
  let l ← each (fun p => do
    let c ← pixel col (sampleIndex aw ah ow oh p)
    let r ← toByte (c.col 0)
    let g ← toByte (c.col 1)
    let b ← toByte (c.col 2)
    let y ← greyOf c.col
    let d ← pixel dir (sampleIndex aw ah ow oh p)
    let t := unit d.col
    pure (y, [r, g, b], [dirByte (t 0), dirByte (t 1), dirByte (t 2)])) (coords ow oh)
  pure ⟨l.map fun e => e.1, l.flatMap fun e => e.2.1, l.flatMap fun e => e.2.2⟩

/-- `WriteSingleLightmap`, light/write.cc:368-460, for the samples `col` and directions `dir`
of a lightmap; `n` bounds the rounds of the filling. -/
def writeSingle (k : ImgCfg) (n aw ah ow oh : Nat) (col dir : List Px) : Option (Outcome Image) :=
  let w := aw * k.extra
  let h := ah * k.extra
  let col := if k.seams then highlight col else col
  match flood w h n col with
  | none => none
  | some full => some do
    let full ← full
    let full ← if k.soft > 0 then blur w h k.soft.toNat full else pure full
    let col' ← downsample w h k.extra full
    let dir' ← downsample w h k.extra dir
    emit k.unit aw ah ow oh col' dir'

/-! ### Scaling of the light -/

/-- The settings for the scaling: the maximal light of the face or of the world (0 for none),
`_lightcolorscale`, `-range`, and the power function of `-gamma` (`none` for 1). -/
structure Scale where
  maxlight : ℚ
  colorscale : ℚ
  range : ℚ
  gamma : Option (ℚ → ℚ)

/-- The largest component. -/
def peak (c : Col) : ℚ := max (max (c 0) (c 1)) (c 2)

/-- `LightFace_ScaleAndClamp` for one sample, light/write.cc:540-577. -/
def scaleClamp (k : Scale) (c : Col) : Col :=
  let c := fun i => max (c i) 0
  let c := if k.maxlight ≠ 0 ∧ peak c > k.maxlight * 2 then
      fun i => c i * (k.maxlight * 2 / peak c) else c
  let c := if k.colorscale ≠ 1 then
      fun i => peak c * (1 - k.colorscale) + c i * k.colorscale else c
  let c := fun i => c i * k.range
  let c := match k.gamma with
    | none => c
    | some g => fun i => g (c i)
  if peak c > 255 then fun i => c i * (255 / peak c) else c

/-! ### The standard lightmap beside a decoupled one -/

/-- Truncation towards zero, as in `(int)decoupled_lm_coord[0]`. -/
def truncInt (q : ℚ) : Int := if 0 ≤ q then q.floor else -((-q).floor)

/-- `mix`, include/common/mathlib.hh:115-119. -/
def mix (a b : Col) (f : ℚ) : Col := fun i => a i * (1 - f) + b i * f

/-- The sample with clamped coordinates, light/write.cc:478-487. -/
def texel (w h : Nat) (img : List Px) (x y : Int) : Outcome Col :=
  match img[clampTo h y * w + clampTo w x]? with
  | some p => .ok p.col
  | none => .ub

/-- The interpolated colour at a position in the lightmap, light/write.cc:496-507. -/
def bilinear (w h : Nat) (img : List Px) (u v : ℚ) : Outcome Col := do
  let x := truncInt u
  let y := truncInt v
  let a ← texel w h img x y
  let b ← texel w h img (x + 1) y
  let c ← texel w h img x (y + 1)
  let d ← texel w h img (x + 1) (y + 1)
  pure (mix (mix a b (u - x)) (mix c d (u - x)) (v - y))

/-- `WriteSingleLightmap_FromDecoupled`, light/write.cc:462-530.  `pos` gives the position in
the lightmap of `w` times `h` samples for every sample of the standard one. -/
def writeDecoupled (w h ow oh : Nat) (pos : Nat × Nat → ℚ × ℚ) (img : List Px) :
    Outcome Image := do
  let l ← each (fun p => do
    let c ← bilinear w h img (pos p).1 (pos p).2
    let r ← toByte (c 0)
    let g ← toByte (c 1)
    let b ← toByte (c 2)
    pure [r, g, b]) (coords ow oh)
  pure ⟨List.replicate (ow * oh) 0, l.flatten, List.replicate (3 * (ow * oh)) 0⟩

end Verif.Light
