import Verif.TexFlags.Model

/-!
What it means that surface flags arrive in light.
-/

namespace Verif.TexFlags

open Verif

/-- Equal as numbers, for numbers that are not NaN: the two zeros are the same number. -/
def F32.Same (x y : F32) : Prop := x = y ∨ (x.isZero = true ∧ y.isZero = true)

/-- Every member light asks for has the value qbsp gave it. Left out are the native flags, which are in the BSP file
itself, and the mark of skip sides of hint brushes, which only qbsp uses. -/
structure Arrives (sent got : Flags) : Prop where
  isNodraw : got.isNodraw = sent.isNodraw
  isHint : got.isHint = sent.isHint
  noDirt : got.noDirt = sent.noDirt
  noShadow : got.noShadow = sent.noShadow
  noBounce : got.noBounce = sent.noBounce
  noMinlight : got.noMinlight = sent.noMinlight
  noExpand : got.noExpand = sent.noExpand
  noPhong : got.noPhong = sent.noPhong
  lightIgnore : got.lightIgnore = sent.lightIgnore
  surflightRescale : got.surflightRescale = sent.surflightRescale
  surflightStyle : got.surflightStyle = sent.surflightStyle
  surflightTargetname : got.surflightTargetname = sent.surflightTargetname
  surflightColor : got.surflightColor = sent.surflightColor
  surflightMinlightScale : got.surflightMinlightScale = sent.surflightMinlightScale
  phongAngle : got.phongAngle.Same sent.phongAngle
  phongAngleConcave : got.phongAngleConcave.Same sent.phongAngleConcave
  phongGroup : got.phongGroup = sent.phongGroup
  minlight : got.minlight = sent.minlight
  minlightColor : got.minlightColor = sent.minlightColor
  lightAlpha : got.lightAlpha = sent.lightAlpha
  lightTwosided : got.lightTwosided = sent.lightTwosided
  maxlight : got.maxlight.Same sent.maxlight
  lightcolorscale : got.lightcolorscale = sent.lightcolorscale
  surflightGroup : got.surflightGroup = sent.surflightGroup
  worldUnitsPerLuxel : got.worldUnitsPerLuxel = sent.worldUnitsPerLuxel
  objectChannelMask : got.objectChannelMask = sent.objectChannelMask

/-- A number that fits an `int32_t`. -/
def Int32 (i : Int) : Prop := -2 ^ 31 ≤ i ∧ i < 2 ^ 31

/-- The whole numbers are of their type. -/
structure Typed (f : Flags) : Prop where
  surflightStyle : ∀ i, f.surflightStyle = some i → Int32 i
  phongGroup : Int32 f.phongGroup
  surflightGroup : Int32 f.surflightGroup
  objectChannelMask : ∀ i, f.objectChannelMask = some i → Int32 i

/-- Flags that survive: numbers are finite, the name is UTF-8, and phong shading is not forbidden. -/
structure Sendable (f : Flags) : Prop where
  noPhong : f.noPhong = false
  surflightTargetname : ∀ s, f.surflightTargetname = some s → utf8 s = true
  surflightMinlightScale : ∀ x, f.surflightMinlightScale = some x → x.finite = true
  phongAngle : f.phongAngle.finite = true
  phongAngleConcave : f.phongAngleConcave.finite = true
  minlight : ∀ x, f.minlight = some x → x.finite = true
  lightAlpha : ∀ x, f.lightAlpha = some x → x.finite = true
  maxlight : f.maxlight.finite = true
  lightcolorscale : f.lightcolorscale.finite = true
  worldUnitsPerLuxel : ∀ x, f.worldUnitsPerLuxel = some x → x.finite = true

/-- The texinfos with their flags and their numbers in the BSP file. -/
def infosOf {V : Type} (l : List (Emit.TexInfo V Flags)) : Infos := l.map fun t => (t.key.flags, t.outputnum)

end Verif.TexFlags
