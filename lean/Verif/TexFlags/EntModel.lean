import Verif.TexFlags.Model
import Verif.Cmdlib.Model

/-!
Model of `SurfFlagsForEntity` (qbsp/map.cc:525-572, 635-842): the surface flags a face gets from the keys of its entity.

Each member of the result is a function of its own; they do not depend on each other in the original either.
Arithmetic on floating-point numbers is a parameter.
-/

namespace Verif.TexFlags

open Verif
open Verif.EntData (Str Dict)
open Verif.Styles (lit)

/-- `qvec3f`. -/
abbrev Vec := F32 × F32 × F32

/-- The arithmetic used: `atof`; comparison of `double`s; the numbers that occur; conversion to `float` (a `double` beyond
the largest `float` becomes infinite); `sscanf` with `%f %f %f` on zeros, with its result; multiplication by 255;
`epsilonEmpty` with `QBSP_EQUAL_EPSILON`; and what qbsp/map.cc:819-827 makes of a colour. -/
structure Arith where
  D : Type
  atof : Str → D
  lt : D → D → Bool
  eq : D → D → Bool
  nat : Nat → D
  narrow : D → F32
  scan : Str → Nat × Vec
  mul255 : F32 → F32
  nearZero : Vec → Bool
  colour : Vec → Rgb

/-- The absolute value of a finite `float`, in units of 2^-149. -/
def F32.mag (x : F32) : Nat :=
  let e := (x.toNat / 2 ^ 23) % 256
  let m := x.toNat % 2 ^ 23
  if e = 0 then m else (m + 2 ^ 23) * 2 ^ (e - 1)

/-- The sign bit. -/
def F32.neg (x : F32) : Bool := x.getLsbD 31

/-- `x <= 1`. -/
def F32.leOne (x : F32) : Bool :=
  if x.finite then x.neg || decide (x.mag ≤ 2 ^ 149) else decide (x = 0xff800000#32)

/-- `(uint8_t)x`: the fraction is dropped; undefined if the result is no `uint8_t`. -/
def F32.toByte (x : F32) : Outcome UInt8 :=
  if !x.finite then .ub
  else if x.neg then (if x.mag < 2 ^ 149 then .ok 0 else .ub)
  else if x.mag / 2 ^ 149 < 256 then .ok (UInt8.ofNat (x.mag / 2 ^ 149)) else .ub

/-- Options of qbsp: `-noskip`, `-splitsky`, `-splitturb`, and whether the target is Quake 2. -/
structure EntOpts where
  noskip : Bool
  splitsky : Bool
  splitturb : Bool
  quake2 : Bool

/-- A face: the name of its texture, the native flags of its texinfo, and whether its contents are a liquid. -/
structure Face where
  texname : Str
  native : Int
  liquid : Bool

/-- `entdict_t::get_float` (common/entdata.cc:51-60). -/
def getFloat (A : Arith) (e : Dict) (k : Str) : A.D :=
  if (EntData.get e k).isEmpty then A.nat 0 else A.atof (EntData.get e k)

/-- `entdict_t::get_vector` (common/entdata.cc:73-84). -/
def getVector (A : Arith) (e : Dict) (k : Str) : Nat × Vec := A.scan (EntData.get e k)

/-- `IsSkipName` (qbsp/map.cc:525-544). -/
def isSkipName (o : EntOpts) (name : Str) : Bool :=
  !o.noskip && ([lit "skip", lit "*waterskip", lit "*slimeskip", lit "*lavaskip", lit "bevel", lit "null",
    lit "__TB_empty"].any fun s => Cmdlib.iequalC name s)

/-- `IsNoExpandName` (qbsp/map.cc:546-551). -/
def isNoExpandName (name : Str) : Bool := Cmdlib.iequalC name (lit "bevel")

/-- `IsSpecialName` (qbsp/map.cc:557-564). -/
def isSpecialName (o : EntOpts) (name : Str) (litwater : Bool) : Bool :=
  (name.head? == some 42 && !litwater) || (Cmdlib.iequalC (name.take 3) (lit "sky") && !o.splitsky)

/-- `IsHintName` (qbsp/map.cc:566-573). -/
def isHintName (name : Str) : Bool := Cmdlib.iequalC name (lit "hint") || Cmdlib.iequalC name (lit "hintskip")

/-- A bit of the native flags. -/
def bit (native : Int) (n : Nat) : Bool := native / 2 ^ n % 2 = 1

/-- `std::clamp`. -/
def clamp (A : Arith) (v : A.D) (lo hi : Nat) : A.D :=
  if A.lt v (A.nat lo) then A.nat lo else if A.lt (A.nat hi) v then A.nat hi else v

/-- `allow_litwater` (qbsp/map.cc:643-653). -/
def litwater (o : EntOpts) (e : Dict) : Outcome Bool :=
  if EntData.has e (lit "_litwater") then do
    let n ← Styles.getInt e (lit "_litwater")
    pure (decide (n > 0))
  else if EntData.has e (lit "_splitturb") then do
    let n ← Styles.getInt e (lit "_splitturb")
    pure (decide (n > 0))
  else pure o.splitturb

/-- `flags.native` (qbsp/map.cc:664-672); `TEX_SPECIAL` is 1. -/
def nativeOf (o : EntOpts) (f : Face) (e : Dict) : Outcome Int :=
  if o.quake2 then .ok f.native
  else do
    let w ← litwater o e
    pure (if isSpecialName o f.texname w then 1 else 0)

/-- `flags.is_nodraw` (qbsp/map.cc:665-666, 674-675); `Q2_SURF_NODRAW` is bit 7. -/
def nodrawOf (o : EntOpts) (f : Face) : Bool := (o.quake2 && bit f.native 7) || isSkipName o f.texname

/-- `flags.is_hint` (qbsp/map.cc:667-668, 676-677); `Q2_SURF_HINT` is bit 8. -/
def hintOf (o : EntOpts) (f : Face) : Bool := (o.quake2 && bit f.native 8) || isHintName f.texname

/-- `is_translucent` (qbsp/map.cc:678-679); bits 4 and 5. -/
def translucent (o : EntOpts) (f : Face) : Bool := o.quake2 && (bit f.native 4 || bit f.native 5)

/-- A flag that is set by one number (qbsp/map.cc:683-690). -/
def isNumber (e : Dict) (k : Str) (n : Int) : Outcome Bool := do
  let v ← Styles.getInt e k
  pure (decide (v = n))

/-- `"_minlight_exclude"` to `"_minlight_exclude9"` (qbsp/map.cc:718-729). -/
def excludeKeys : List Str :=
  lit "_minlight_exclude" :: (List.range 9).map fun i => lit "_minlight_exclude" ++ Styles.decimal ((i : Int) + 1)

/-- `flags.no_minlight` (qbsp/map.cc:687-688, 718-729). -/
def noMinlightOf (f : Face) (e : Dict) : Outcome Bool := do
  let m ← isNumber e (lit "_minlight") (-1)
  pure (m || excludeKeys.any fun k =>
    !(EntData.get e k).isEmpty && Cmdlib.iequalC f.texname (EntData.get e k))

/-- `flags.surflight_rescale` (qbsp/map.cc:691-693). -/
def rescaleOf (e : Dict) : Outcome (Option Bool) :=
  if EntData.has e (lit "_surflight_rescale") then do
    let b ← isNumber e (lit "_surflight_rescale") 1
    pure (some b)
  else pure none

/-- Three components as bytes. -/
def toBytes (v : Vec) : Outcome Rgb := do
  let r ← v.1.toByte
  let g ← v.2.1.toByte
  let b ← v.2.2.toByte
  pure (r, g, b)

/-- `flags.surflight_color` (qbsp/map.cc:694-705). -/
def surflightColorOf (A : Arith) (e : Dict) : Outcome (Option Rgb) :=
  let s := getVector A e (lit "_surflight_color")
  if EntData.has e (lit "_surflight_color") && s.1 == 3 then
    let c := s.2
    if c.1.leOne && c.2.1.leOne && c.2.2.leOne then do
      let b ← toBytes (A.mul255 c.1, A.mul255 c.2.1, A.mul255 c.2.2)
      pure (some b)
    else do
      let b ← toBytes c
      pure (some b)
  else pure none

/-- `flags.surflight_style` (qbsp/map.cc:706-707). -/
def styleOf (e : Dict) : Outcome (Option Int) :=
  if EntData.has e (lit "_surflight_style") then do
    let n ← Styles.getInt e (lit "_surflight_style")
    pure (if n ≠ 0 then some n else none)
  else pure none

/-- `flags.surflight_targetname` (qbsp/map.cc:708-709). -/
def targetnameOf (e : Dict) : Option Str :=
  if EntData.has e (lit "_surflight_targetname") then some (EntData.get e (lit "_surflight_targetname")) else none

/-- `flags.surflight_minlight_scale` (qbsp/map.cc:711-716). -/
def minlightScaleOf (A : Arith) (world e : Dict) : Option F32 :=
  let k := lit "_surflight_minlight_scale"
  if EntData.has e k then some (A.narrow (getFloat A e k))
  else if EntData.has world k then some (A.narrow (getFloat A world k))
  else none

/-- `flags.no_shadow` (qbsp/map.cc:731-745). -/
def noShadowOf (o : EntOpts) (f : Face) (e : Dict) : Outcome Bool := do
  let shadow ← Styles.getInt e (lit "_shadow")
  pure (decide (shadow = -1) ||
    (Cmdlib.iequalC (lit "func_detail_illusionary") (EntData.get e (lit "classname")) && decide (shadow ≠ 1)) ||
    (f.liquid && !translucent o f && decide (shadow ≠ 1)))

/-- `flags.phong_angle` (qbsp/map.cc:747-766). -/
def phongOf (A : Arith) (world e : Dict) : Outcome F32 := do
  let phong ← Styles.getInt e (lit "_phong")
  let phong ← (if !EntData.has e (lit "_phong") && EntData.has world (lit "_phong")
    then Styles.getInt world (lit "_phong") else pure phong : Outcome Int)
  let angle := if !EntData.has e (lit "_phong_angle") && EntData.has world (lit "_phong_angle")
    then getFloat A world (lit "_phong_angle") else getFloat A e (lit "_phong_angle")
  let angle := if decide (phong ≠ 0) && A.eq angle (A.nat 0) then A.nat 89 else angle
  pure (if !A.eq angle (A.nat 0) then A.narrow (clamp A angle 0 360) else 0#32)

/-- `flags.phong_angle_concave` (qbsp/map.cc:768-769). -/
def concaveOf (A : Arith) (e : Dict) : F32 := A.narrow (clamp A (getFloat A e (lit "_phong_angle_concave")) 0 360)

/-- `flags.minlight` (qbsp/map.cc:774-778); `std::max(0., v)`. -/
def minlightOf (A : Arith) (e : Dict) : Option F32 :=
  if EntData.has e (lit "_minlight") then
    let v := getFloat A e (lit "_minlight")
    some (A.narrow (if A.lt (A.nat 0) v then v else A.nat 0))
  else none

/-- `flags.maxlight` (qbsp/map.cc:780-786). -/
def maxlightOf (A : Arith) (e : Dict) : F32 :=
  let v := getFloat A e (lit "_maxlight")
  if A.lt (A.nat 0) v then A.narrow (clamp A v 0 510) else 0#32

/-- `flags.lightcolorscale` (qbsp/map.cc:788-794). -/
def colorscaleOf (A : Arith) (e : Dict) : F32 :=
  if EntData.has e (lit "_lightcolorscale") then
    let v := getFloat A e (lit "_lightcolorscale")
    if !A.eq v (A.nat 1) then A.narrow (clamp A v 0 1) else F32.one
  else F32.one

/-- `flags.surflight_group` (qbsp/map.cc:796-802). -/
def groupOf (e : Dict) : Outcome Int :=
  if EntData.has e (lit "_surflight_group") then Styles.getInt e (lit "_surflight_group") else .ok 0

/-- `flags.world_units_per_luxel` (qbsp/map.cc:804-806). -/
def luxelOf (A : Arith) (e : Dict) : Option F32 :=
  if EntData.has e (lit "_world_units_per_luxel") then some (A.narrow (getFloat A e (lit "_world_units_per_luxel")))
  else none

/-- `flags.object_channel_mask` (qbsp/map.cc:808-810). -/
def channelOf (e : Dict) : Outcome (Option Int) :=
  if EntData.has e (lit "_object_channel_mask") then do
    let n ← Styles.getInt e (lit "_object_channel_mask")
    pure (some n)
  else pure none

/-- `flags.minlight_color` (qbsp/map.cc:812-827). -/
def minlightColorOf (A : Arith) (e : Dict) : Rgb :=
  let v := (getVector A e (lit "_mincolor")).2
  A.colour (if A.nearZero v then (getVector A e (lit "_minlight_color")).2 else v)

/-- `flags.light_alpha` (qbsp/map.cc:829-833). -/
def alphaOf (A : Arith) (e : Dict) : Option F32 :=
  if EntData.has e (lit "_light_alpha") then some (A.narrow (clamp A (getFloat A e (lit "_light_alpha")) 0 1)) else none

/-- `flags.light_twosided` (qbsp/map.cc:835-838). -/
def twosidedOf (e : Dict) : Outcome (Option Bool) :=
  if EntData.has e (lit "_light_twosided") then do
    let n ← Styles.getInt e (lit "_light_twosided")
    pure (some (decide (n ≠ 0)))
  else pure none

/-- `SurfFlagsForEntity` (qbsp/map.cc:635-842). -/
def entityFlags (A : Arith) (o : EntOpts) (world : Dict) (f : Face) (e : Dict) : Outcome Flags := do
  let native ← nativeOf o f e
  let noDirt ← isNumber e (lit "_dirt") (-1)
  let noBounce ← isNumber e (lit "_bounce") (-1)
  let noMinlight ← noMinlightOf f e
  let lightIgnore ← isNumber e (lit "_lightignore") 1
  let rescale ← rescaleOf e
  let surflightColor ← surflightColorOf A e
  let style ← styleOf e
  let noShadow ← noShadowOf o f e
  let phong ← phongOf A world e
  let phongGroup ← Styles.getInt e (lit "_phong_group")
  let group ← groupOf e
  let channel ← channelOf e
  let twosided ← twosidedOf e
  pure {
    native := native
    isNodraw := nodrawOf o f
    isHint := hintOf o f
    noDirt := noDirt
    noShadow := noShadow
    noBounce := noBounce
    noMinlight := noMinlight
    noExpand := isNoExpandName f.texname
    lightIgnore := lightIgnore
    surflightRescale := rescale
    surflightStyle := style
    surflightTargetname := targetnameOf e
    surflightColor := surflightColor
    surflightMinlightScale := minlightScaleOf A world e
    phongAngle := phong
    phongAngleConcave := concaveOf A e
    phongGroup := phongGroup
    minlight := minlightOf A e
    minlightColor := minlightColorOf A e
    lightAlpha := alphaOf A e
    lightTwosided := twosided
    maxlight := maxlightOf A e
    lightcolorscale := colorscaleOf A e
    surflightGroup := group
    worldUnitsPerLuxel := luxelOf A e
    objectChannelMask := channel }

end Verif.TexFlags
