import Verif.Common.Outcome
import Verif.Settings.Model
import Verif.Styles.Model
import Verif.Emit.Texinfo
import Mathlib.Data.List.Sort

/-!
Model of the way surface flags take from qbsp to light: the file `.texinfo.json`, written by `WriteExtendedTexinfoFlags`
(qbsp/writebsp.cc:342-458) and read by `LoadExtendedTexinfoFlags` (light/light.cc:940-1054).

The JSON library is not part of the repository. Of it, the following is assumed: an object lists its pairs in the order
of the bytes of their keys; writing a value as text and reading it gives the same value, but a number that is not finite
is written as `null`, and a string that is not UTF-8 makes the writer throw an exception, which leaves a file that is cut
short and cannot be read; `get<bool>` and `get<std::string>` throw for a value of another type, and so do `get<float>`
and `get<int32_t>` for a value that is not a number. A `float` is widened to `double`, written with as many digits as
are needed, and narrowed again, which gives the same `float`.
-/

namespace Verif.TexFlags

open Verif
open Verif.EntData (Str)

/-- The bits of a `float`. -/
abbrev F32 := BitVec 32

/-- Equal to 0; there are two zeros. -/
def F32.isZero (x : F32) : Bool := x &&& 0x7fffffff#32 == 0#32

/-- 1.0. -/
def F32.one : F32 := 0x3f800000#32

/-- Neither infinite nor NaN. -/
def F32.finite (x : F32) : Bool := x &&& 0x7f800000#32 != 0x7f800000#32

/-- `qvec3b`. -/
abbrev Rgb := UInt8 × UInt8 × UInt8

/-- `surfflags_t` (include/common/bspfile_common.hh:218-313), with its default values. -/
structure Flags where
  native : Int := 0
  isNodraw : Bool := false
  isHint : Bool := false
  isHintskip : Bool := false
  noDirt : Bool := false
  noShadow : Bool := false
  noBounce : Bool := false
  noMinlight : Bool := false
  noExpand : Bool := false
  noPhong : Bool := false
  lightIgnore : Bool := false
  surflightRescale : Option Bool := none
  surflightStyle : Option Int := none
  surflightTargetname : Option Str := none
  surflightColor : Option Rgb := none
  surflightMinlightScale : Option F32 := none
  phongAngle : F32 := 0#32
  phongAngleConcave : F32 := 0#32
  phongGroup : Int := 0
  minlight : Option F32 := none
  minlightColor : Rgb := (0, 0, 0)
  lightAlpha : Option F32 := none
  lightTwosided : Option Bool := none
  maxlight : F32 := 0#32
  lightcolorscale : F32 := F32.one
  surflightGroup : Int := 0
  worldUnitsPerLuxel : Option F32 := none
  objectChannelMask : Option Int := none
  deriving DecidableEq, Repr

/-- `surfflags_t::needs_write` (common/bspfile_common.cc:180-193): some member differs from its default. -/
def Flags.needsWrite (f : Flags) : Bool :=
  decide (f.native ≠ 0) || f.isNodraw || f.isHintskip || f.isHint || f.noDirt || f.noShadow || f.noBounce ||
  f.noMinlight || f.noExpand || f.noPhong || f.lightIgnore || f.surflightRescale.isSome || f.surflightStyle.isSome ||
  f.surflightColor.isSome || f.surflightMinlightScale.isSome || f.surflightTargetname.isSome || !f.phongAngle.isZero ||
  !f.phongAngleConcave.isZero || decide (f.phongGroup ≠ 0) || f.minlight.isSome ||
  decide (f.minlightColor ≠ (0, 0, 0)) || f.lightAlpha.isSome || f.lightTwosided.isSome || !f.maxlight.isZero ||
  decide (f.lightcolorscale ≠ F32.one) || decide (f.surflightGroup ≠ 0) || f.worldUnitsPerLuxel.isSome ||
  f.objectChannelMask.isSome

/-! ### Values -/

/-- `json`, as far as it occurs within a texinfo; `ints` is an array of whole numbers. -/
inductive Val
  | null
  | bool (b : Bool)
  | int (i : Int)
  | num (x : F32)
  | str (s : Str)
  | ints (l : List Int)
  deriving DecidableEq, Repr

/-- A byte that continues a character in UTF-8. -/
def cont (b : UInt8) : Bool := 0x80 ≤ b && b ≤ 0xbf

/-- A text is UTF-8: no overlong forms, no surrogates, nothing beyond U+10FFFF. -/
def utf8 : Str → Bool
  | [] => true
  | a :: s =>
    if a ≤ 0x7f then utf8 s
    else match s with
    | [] => false
    | b :: s =>
      if 0xc2 ≤ a && a ≤ 0xdf then cont b && utf8 s
      else match s with
      | [] => false
      | c :: s =>
        if a == 0xe0 then 0xa0 ≤ b && b ≤ 0xbf && cont c && utf8 s
        else if a == 0xed then 0x80 ≤ b && b ≤ 0x9f && cont c && utf8 s
        else if 0xe1 ≤ a && a ≤ 0xef then cont b && cont c && utf8 s
        else match s with
        | [] => false
        | d :: s =>
          if a == 0xf0 then 0x90 ≤ b && b ≤ 0xbf && cont c && cont d && utf8 s
          else if 0xf1 ≤ a && a ≤ 0xf3 then cont b && cont c && cont d && utf8 s
          else if a == 0xf4 then 0x80 ≤ b && b ≤ 0x8f && cont c && cont d && utf8 s
          else false

/-- A value after it has been written as text; nothing stands for the exception. -/
def Val.text : Val → Option Val
  | .num x => some (if x.finite then .num x else .null)
  | .str s => if utf8 s then some (.str s) else none
  | v => some v

/-- `get<bool>`. -/
def getBool : Val → Outcome Bool
  | .bool b => .ok b
  | _ => .error

/-- `get<int32_t>`; a `json` that holds a `float` is not read as an `int` anywhere in a file qbsp has written, and is
left out. -/
def getInt : Val → Outcome Int
  | .int i => .ok (Int.bmod i (2 ^ 32))
  | _ => .error

/-- `get<float>` of a number that is a `float`. -/
def getNum : Val → Outcome F32
  | .num x => .ok x
  | _ => .error

/-- `get<std::string>`. -/
def getStr : Val → Outcome Str
  | .str s => .ok s
  | _ => .error

/-- `from_json` for `qvec3b` (include/common/json.hh:39-45). An index beyond the end of an array is not checked. -/
def getRgb : Val → Outcome Rgb
  | .ints (a :: b :: c :: _) => .ok (UInt8.ofInt a, UInt8.ofInt b, UInt8.ofInt c)
  | .ints _ => .ub
  | _ => .error

/-- `to_json` for `qvec3b` (include/common/json.hh:29-37). -/
def ofRgb (c : Rgb) : Val := .ints [c.1.toNat, c.2.1.toNat, c.2.2.toNat]

/-! ### One texinfo -/

/-- The pairs of an object. -/
abbrev Obj := List (String × Val)

/-- `contains` and `at`. -/
def Obj.find (o : Obj) (k : String) : Option Val := (o.find? fun kv => kv.1 == k).map Prod.snd

/-- A member that is written if it is set. -/
def flag (b : Bool) : Option Val := if b then some (.bool b) else none

/-- A member that is written unless it is zero. -/
def nonZero (x : F32) : Option Val := if x.isZero then none else some (.num x)

/-- A member that is written unless it is zero. -/
def nonZeroInt (i : Int) : Option Val := if i = 0 then none else some (.int i)

/-- What is written for the members of one texinfo (qbsp/writebsp.cc:373-452), in this order. -/
def members (f : Flags) : List (String × Option Val) := [
  ("is_nodraw", flag f.isNodraw),
  ("is_hint", flag f.isHint),
  ("no_dirt", flag f.noDirt),
  ("no_shadow", flag f.noShadow),
  ("no_bounce", flag f.noBounce),
  ("no_minlight", flag f.noMinlight),
  ("no_expand", flag f.noExpand),
  ("no_phong", flag f.noPhong),
  ("light_ignore", flag f.lightIgnore),
  ("surflight_rescale", f.surflightRescale.map .bool),
  ("surflight_style", f.surflightStyle.map .int),
  ("surflight_targetname", f.surflightTargetname.map .str),
  ("surflight_color", f.surflightColor.map ofRgb),
  ("surflight_minlight_scale", f.surflightMinlightScale.map .num),
  ("phong_angle", nonZero f.phongAngle),
  ("phong_angle_concave", nonZero f.phongAngleConcave),
  ("phong_group", nonZeroInt f.phongGroup),
  ("minlight", f.minlight.map .num),
  ("maxlight", nonZero f.maxlight),
  ("minlight_color", if f.minlightColor = (0, 0, 0) then none else some (ofRgb f.minlightColor)),
  ("light_alpha", f.lightAlpha.map .num),
  ("light_twosided", f.lightTwosided.map .bool),
  ("lightcolorscale", if f.lightcolorscale = F32.one then none else some (.num f.lightcolorscale)),
  ("surflight_group", nonZeroInt f.surflightGroup),
  ("world_units_per_luxel", f.worldUnitsPerLuxel.map .num),
  ("object_channel_mask", f.objectChannelMask.map .int)]

/-- The object of one texinfo. -/
def toObj (f : Flags) : Obj := (members f).filterMap fun kv => kv.2.map fun v => (kv.1, v)

/-- An object after it has been written as text. -/
def Obj.text (o : Obj) : Option Obj := o.mapM fun kv => kv.2.text.map fun v => (kv.1, v)

/-- `if (val.contains(key)) { flags.member = val.at(key).get<…>(); }`. -/
def upd {α : Type} (o : Obj) (k : String) (conv : Val → Outcome α) (put : α → Flags → Flags) (f : Flags) :
    Outcome Flags :=
  match o.find k with
  | none => .ok f
  | some v => do
    let a ← conv v
    pure (put a f)

/-- Reading one texinfo (light/light.cc:971-1053). `no_phong` is stored in `no_expand`. -/
def ofObj (o : Obj) (f : Flags) : Outcome Flags := do
  let f ← upd o "is_nodraw" getBool (fun b f => { f with isNodraw := b }) f
  let f ← upd o "is_hint" getBool (fun b f => { f with isHint := b }) f
  let f ← upd o "is_hintskip" getBool (fun b f => { f with isHintskip := b }) f
  let f ← upd o "no_dirt" getBool (fun b f => { f with noDirt := b }) f
  let f ← upd o "no_shadow" getBool (fun b f => { f with noShadow := b }) f
  let f ← upd o "no_bounce" getBool (fun b f => { f with noBounce := b }) f
  let f ← upd o "no_minlight" getBool (fun b f => { f with noMinlight := b }) f
  let f ← upd o "no_expand" getBool (fun b f => { f with noExpand := b }) f
  let f ← upd o "no_phong" getBool (fun b f => { f with noExpand := b }) f
  let f ← upd o "light_ignore" getBool (fun b f => { f with lightIgnore := b }) f
  let f ← upd o "surflight_rescale" getBool (fun b f => { f with surflightRescale := some b }) f
  let f ← upd o "surflight_style" getInt (fun i f => { f with surflightStyle := some i }) f
  let f ← upd o "surflight_targetname" getStr (fun s f => { f with surflightTargetname := some s }) f
  let f ← upd o "surflight_color" getRgb (fun c f => { f with surflightColor := some c }) f
  let f ← upd o "surflight_minlight_scale" getNum (fun x f => { f with surflightMinlightScale := some x }) f
  let f ← upd o "phong_angle" getNum (fun x f => { f with phongAngle := x }) f
  let f ← upd o "phong_angle_concave" getNum (fun x f => { f with phongAngleConcave := x }) f
  let f ← upd o "phong_group" getInt (fun i f => { f with phongGroup := i }) f
  let f ← upd o "minlight" getNum (fun x f => { f with minlight := some x }) f
  let f ← upd o "maxlight" getNum (fun x f => { f with maxlight := x }) f
  let f ← upd o "minlight_color" getRgb (fun c f => { f with minlightColor := c }) f
  let f ← upd o "light_alpha" getNum (fun x f => { f with lightAlpha := some x }) f
  let f ← upd o "light_twosided" getBool (fun b f => { f with lightTwosided := some b }) f
  let f ← upd o "lightcolorscale" getNum (fun x f => { f with lightcolorscale := x }) f
  let f ← upd o "surflight_group" getInt (fun i f => { f with surflightGroup := i }) f
  let f ← upd o "world_units_per_luxel" getNum (fun x f => { f with worldUnitsPerLuxel := some x }) f
  let f ← upd o "object_channel_mask" getInt (fun i f => { f with objectChannelMask := some i }) f
  upd o "surflight_minlight_scale" getNum (fun x f => { f with surflightMinlightScale := some x }) f

/-! ### The file -/

/-- The object of the whole file, in the order of its keys. -/
abbrev Doc := List (Str × Obj)

/-- The order of texts by their bytes. -/
def before : Str → Str → Bool
  | [], [] => false
  | [], _ :: _ => true
  | _ :: _, [] => false
  | a :: s, b :: t => if a = b then before s t else a < b

/-- `texinfofile[key].swap(t)` (qbsp/writebsp.cc:454). -/
def Doc.put (key : Str) (o : Obj) : Doc → Doc
  | [] => [(key, o)]
  | (k, p) :: d =>
    if k = key then (k, o) :: d
    else if before key k then (key, o) :: (k, p) :: d
    else (k, p) :: Doc.put key o d

/-- The texinfos of qbsp with the number they have in the BSP file, if they are in it. -/
abbrev Infos := List (Flags × Option Nat)

/-- The order of `outputnum` (qbsp/writebsp.cc:365-366); no number comes first. -/
def numLe (a b : Flags × Option Nat) : Prop :=
  match a.2, b.2 with
  | none, _ => True
  | some _, none => False
  | some i, some j => i ≤ j

instance : DecidableRel numLe := fun a b => by unfold numLe; split <;> infer_instance

/-- One round of the loop over the sorted texinfos (qbsp/writebsp.cc:370-454). -/
def addInfo (d : Doc) (t : Flags × Option Nat) : Doc :=
  match t.2 with
  | none => d
  | some i => if t.1.needsWrite then d.put (Styles.decimal i) (toObj t.1) else d

/-- The object that is written (qbsp/writebsp.cc:363-455). -/
def toDoc (infos : Infos) : Doc := (infos.insertionSort numLe).foldl addInfo []

/-- The whole object after it has been written as text. -/
def Doc.text (d : Doc) : Option Doc := d.mapM fun kv => (Obj.text kv.2).map fun o => (kv.1, o)

/-- A file `.texinfo.json`: an object, or something that is not JSON. -/
inductive File
  | doc (d : Doc)
  | broken
  deriving DecidableEq

/-- `WriteExtendedTexinfoFlags` (qbsp/writebsp.cc:342-458): the file afterwards, and whether an exception was thrown.
`old` is the file of an earlier run, which is removed first; `off` is `-noextendedsurfflags`. -/
def write (old : Option File) (off : Bool) (infos : Infos) : Option File × Bool :=
  let file : Option File := if old.isSome then none else old
  if !(infos.any fun t => t.1.needsWrite) || off then (file, false)
  else
    match (toDoc infos).text with
    | some d => (some (.doc d), false)
    | none => (some .broken, true)

/-- What `memset` to zero makes of `surfflags_t` (light/light.cc:966): every member as by default, but
`lightcolorscale` is 0. (The type has a constructor and a member of class type, so that the language does not
guarantee this.) -/
def zeroed : Flags := { lightcolorscale := 0#32 }

/-- The loop over the pairs of the file (light/light.cc:961-1054); `n` is the number of texinfos in the BSP file. -/
def loadDoc (n : Nat) : Doc → List Flags → Outcome (List Flags)
  | [], fl => .ok fl
  | (k, o) :: d, fl =>
    match Settings.stoull k with
    | none => .error
    | some i =>
      if n ≤ i then .ok (List.replicate n zeroed)
      else
        match fl[i]? with
        | none => .ub
        | some f => do
          let f ← ofObj o f
          loadDoc n d (fl.set i f)

/-- `LoadExtendedTexinfoFlags` (light/light.cc:940-1054). -/
def load (n : Nat) : Option File → Outcome (List Flags)
  | none => .ok (List.replicate n {})
  | some .broken => .error
  | some (.doc d) => loadDoc n d (List.replicate n {})

end Verif.TexFlags
