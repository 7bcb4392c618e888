import Verif.Common.Outcome
import Mathlib.Data.Rat.Defs
import Mathlib.Algebra.Order.Ring.Unbundled.Rat
import Mathlib.Tactic.Linarith

/-!
Model of how the settings of a face are made from those of its model, its texture info and the world (`Lightsurf_Init`,
light/ltface.cc:562-731), of the minimum light that comes from them (light/ltface.cc:2704-2718), of the lightmap scales
(light/light.cc:655-680, 735-767) and of the models and their lists of shadows (light/light.cc:682-720, 541-557).

Simplification: `float` is replaced by rational numbers, that is, arithmetic is exact. A colour is a list of its components. The points
of a face and its extents are modelled in `Verif.Samples` and `Verif.Extents`.
-/

namespace Verif.FaceKeys

/-- What matters of `modelinfo_t` (include/light/light.hh:196-233); `none` is a setting for which `is_changed()` is false. -/
structure Model where
  dirt : Option ℚ
  minlight : Option ℚ
  mottle : Option Bool
  maxlight : Option ℚ
  colorscale : Option ℚ
  mincolor : Option (List ℚ)
  alpha : ℚ
  channels : Int
  scale : ℚ

/-- What matters of the extended flags of the texture info (`surfflags_t`, include/common/bspfile_common.hh:218-303). -/
structure Flags where
  phong : Bool
  twosided : Option Bool
  noDirt : Bool
  minlight : Option ℚ
  maxlight : ℚ
  colorscale : ℚ
  mincolor : List ℚ
  channels : Option Int
  minscale : Option ℚ
  unitsPerLuxel : Option ℚ

/-- What matters of the face itself. -/
structure Face where
  translucent : Bool
  phongValue : Bool
  sky : Bool

/-- The options and keys of the world, and whether the game is Quake II. -/
structure World where
  quake2 : Bool
  minlight : ℚ
  mincolor : List ℚ
  mottle : Option Bool
  unitsPerLuxel : Option ℚ

/-- What matters of `lightsurf_t`. The extents are given as the scale, or the units for each luxel of a decoupled lightmap. -/
structure Surface where
  twosided : Bool
  scale : ℚ
  curved : Bool
  nodirt : Bool
  minlight : ℚ
  mottle : Bool
  maxlight : ℚ
  colorscale : ℚ
  mincolor : List ℚ
  channels : Int
  minscale : ℚ
  extents : ℚ ⊕ ℚ

/-- A colour with nothing in it (`qv::emptyExact`, include/common/qvec.hh). -/
def emptyColor (c : List ℚ) : Bool := c.all (· = 0)

/-- `Lightsurf_Init` for a lightmapped face (light/ltface.cc:586-707). `sup` is the scale in the supplementary data. -/
def surface (w : World) (m : Model) (x : Flags) (f : Face) (sup : Option ℚ) : Surface :=
  let twosided := f.translucent
  let scale := match sup with
    | some s => if s < m.scale then s else m.scale
    | none => m.scale
  let twosided := x.twosided.getD twosided
  let nodirt := match m.dirt with
    | some d => decide (d = -1)
    | none => x.noDirt
  let minlight := match m.minlight with
    | some v => v
    | none => match x.minlight with
      | some v => v
      | none => w.minlight
  let mottle := match m.mottle with
    | some v => v
    | none => match w.mottle with
      | some v => v
      | none => false
  let minlight := if w.quake2 then minlight * 128 else minlight
  let maxlight := match m.maxlight with
    | some v => v
    | none => x.maxlight
  let colorscale := match m.colorscale with
    | some v => v
    | none => x.colorscale
  let maxlight := if w.quake2 then maxlight * 128 else maxlight
  let mincolor := match m.mincolor with
    | some v => v
    | none => if emptyColor x.mincolor = false then x.mincolor else w.mincolor
  let nodirt := if f.translucent then true else nodirt
  let twosided := if m.alpha < 1 then true else twosided
  let channels := x.channels.getD m.channels
  let minscale := x.minscale.getD 1
  let extents := match w.unitsPerLuxel with
    | some u => .inr (if w.quake2 = true ∧ f.sky = true then 512 else match x.unitsPerLuxel with
      | some v => v
      | none => u)
    | none => .inl scale
  ⟨twosided, scale, x.phong || f.phongValue, nodirt, minlight, mottle, maxlight, colorscale, mincolor, channels, minscale, extents⟩

/-- The minimum light a face is raised to in style 0, and its colour (light/ltface.cc:2704-2718); nothing if it is zero. -/
def minimum (w : World) (s : Surface) : Option (ℚ × List ℚ) :=
  let m := if s.minlight > w.minlight then (s.minlight, s.mincolor) else (w.minlight, w.mincolor)
  if m.1 ≠ 0 then some m else none

/-! ### Lightmap scales -/

/-- The scale of the map (light/light.cc:663-667): `key` is the whole number of the key `_lightmap_scale` of the world. -/
def mapScale (key : Int) : Outcome ℚ :=
  if (if key = 0 then 16 else key) ≤ 0 then .error else .ok (if key = 0 then 16 else key)

/-- The loop before the warning about powers of 2 (light/light.cc:673-676); the scale is a whole number. -/
def countTo (scale : Int) (i : Int) : ℕ → Int
  | 0 => i
  | fuel + 1 => if i < scale then countTo scale (i + 1) fuel else i

/-- Whether the warning is printed (light/light.cc:677). -/
def warns (scale : Int) : Bool := decide (countTo scale 1 scale.toNat ≠ scale)

/-- The supplementary scale of a face from the LMSHIFT lump (light/light.cc:758-761): no test of the size of the lump; the byte is a
signed `char`, and a shift by a negative number or by 32 or more is undefined. -/
def shiftScale (lump : List ℕ) (i : ℕ) : Outcome Int :=
  match lump[i]? with
  | none => .ub
  | some b => if b < 128 then if b < 32 then .ok (if b = 31 then -2 ^ 31 else 2 ^ b) else .ub else .ub

/-- The supplementary scales of all faces (light/light.cc:735-767): `forced` is `-lightmap_scale` being given, `option` the value of `-lmshift`,
`lit2` whether version 2 of .lit files or more than 4 styles are asked for. `none`: there is no supplementary data. -/
def supScales (forced : Bool) (option : Option Int) (lump : Option (List ℕ)) (lit2 : Bool) (scale : ℚ) (faces : ℕ) : Outcome (Option (List ℚ)) :=
  let lump := if forced then none else match option with
    | some v => some (List.replicate faces (v % 256).toNat)
    | none => lump
  match lump with
  | some l => go l (List.range faces)
  | none => if lit2 then .ok (some (List.replicate faces scale)) else .ok none
where
  go (l : List ℕ) : List ℕ → Outcome (Option (List ℚ))
    | [] => .ok (some [])
    | i :: t => shiftScale l i >>= fun s => go l t >>= fun r => .ok (r.map ((s : ℚ) :: ·))

/-! ### Models -/

/-- `ModelInfoForFace` (light/light.cc:541-557): the index of the model; models are given by their first face and number of faces. -/
def modelOf (models : List (Int × Int)) (face : Int) : Option ℕ :=
  models.findIdx? fun m => decide (¬ face < m.1) && decide (face < m.1 + m.2)

/-- The settings about shadows of a model. -/
structure Shadows where
  switchable : Bool
  style : Int
  shadow : Bool
  self : Bool
  worldOnly : Bool

/-- The lists of light/light.cc:83-87 a model can be on. -/
inductive ListName where
  | trace | self | worldOnly | switchable
  deriving DecidableEq

/-- The list of a model other than the world (light/light.cc:703-713). -/
def listOf (s : Shadows) : Outcome (Option ListName) :=
  if s.switchable then if s.style ≠ 0 then .ok (some .switchable) else .error
  else if s.shadow then .ok (some .trace)
  else if s.self then .ok (some .self)
  else if s.worldOnly then .ok (some .worldOnly)
  else .ok none

/-- `FindModelInfo` (light/light.cc:682-720): the lists of all models. `find` yields the settings of the entity of a model, if there is
one; `count` is the number of models. -/
def modelLists (find : ℕ → Option Shadows) (count : ℕ) : Outcome (List (Option ListName)) :=
  if count = 0 then .error else go (List.range' 1 (count - 1)) >>= fun r => .ok (some .trace :: r)
where
  go : List ℕ → Outcome (List (Option ListName))
    | [] => .ok []
    | i :: t =>
      match find i with
      | none => .error
      | some s => listOf s >>= fun a => go t >>= fun r => .ok (a :: r)

end Verif.FaceKeys
