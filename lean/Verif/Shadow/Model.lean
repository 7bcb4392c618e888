import Verif.Common.Outcome
import Verif.Cmdlib.Model
import Mathlib.Data.Rat.Floor
import Mathlib.Tactic.Linarith

/-!
Model of what stops a ray of light, and what tints it (light/trace_embree.cc, include/light/trace_embree.hh): which faces of a
map are put into which of the geometries of the ray tracer (552-647), what is noted of each triangle (73-100, 147-178), the
filters called for the hits on a ray (307-461), the notes made on a ray (701-731) and its colour behind the trace
(include/light/trace_embree.hh:80-98).

Simplifications: exact numbers; surface flags are read as one truth value for each flag that is tested; which triangles lie on a
ray, at what distance, seen from which side and with which texel, is given (Embree and `SampleTexture` are not part of this
model): the ray tracer is a sequence of calls of the filters for these hits, in any order and with any repetition.
-/

namespace Verif.Shadow

open Verif.Cmdlib (Str)

/-- A channel mask, an `int`; `CHANNEL_MASK_DEFAULT` is 1 (include/common/bspfile.hh). -/
abbrev Mask := BitVec 32

/-- What the ray tracer reads of a `modelinfo_t` (light/light.cc:134-159); numbers that are only tested by `boolValue` (greater
than 0) are truth values; `alpha` is absent if the key was not set. -/
structure Mdl where
  id : Nat
  isWorld : Bool
  shadow : Bool
  shadowself : Bool
  shadowworldonly : Bool
  switchable : Bool
  style : Int
  mask : Mask
  alpha : Option ℚ
  deriving DecidableEq

/-- What the ray tracer reads of a face, of its texinfo and of the extended flags of its texinfo. The flags are those of
Quake 2 (include/common/bspfile_q2.hh:182-196). -/
structure Fc where
  noShadow : Bool
  mask : Option Mask
  lightAlpha : Option ℚ
  name : Str
  nodraw : Bool
  sky : Bool
  light : Bool
  value : Int
  trans33 : Bool
  trans66 : Bool
  warp : Bool
  alphatest : Bool
  deriving DecidableEq

/-- The game, as far as it matters, and the option `-arghradcompat`. -/
structure Game where
  q2 : Bool
  arghrad : Bool
  deriving DecidableEq

/-- `Face_Alpha` (light/trace_embree.cc:73-100). -/
def faceAlpha (g : Game) (m : Mdl) (f : Fc) : ℚ :=
  match f.lightAlpha with
  | some a => a
  | none =>
    match m.alpha with
    | some a => a
    | none => if g.q2 && f.trans33 then 33 / 100 else if g.q2 && f.trans66 then 66 / 100 else 1

/-- `tolower` of a letter. -/
def lower (c : UInt8) : UInt8 := if 65 ≤ c ∧ c ≤ 90 then c + 32 else c

/-- `Q_strncasecmp(name, pat, strlen(pat)) == 0` for a `pat` in lower case. -/
def begins (pat name : Str) : Bool := (name.take pat.length).map lower == pat

/-- `ContentsOrSurfaceFlags_IsTranslucent` of `Face_ContentsOrSurfaceFlags` (common/bsputils.cc:201-241): outside of Quake 2 a
name is a liquid if it begins with an asterisk (lava, slime and water are told apart, but all three are liquids). -/
def liquid (g : Game) (f : Fc) : Bool :=
  if g.q2 then f.trans33 || f.trans66 || f.warp else f.name.head? == some 42

/-- The geometries of the ray tracer. -/
inductive Geom
  | nowhere
  | sky
  | solid
  | filter
  deriving DecidableEq

/-- Where a face is put (light/trace_embree.cc:552-647); `.error` if an assertion fails. -/
def classify (g : Game) (m : Mdl) (f : Fc) : Outcome Geom :=
  if !(m.isWorld || m.shadow || m.shadowself || m.shadowworldonly || m.switchable || m.mask != 1) then .ok .nowhere
  else if f.noShadow then .ok .nowhere
  else if m.switchable then .ok .filter
  else if m.mask != 1 || f.mask.getD 1 != 1 then .ok .filter
  else if g.q2 && f.nodraw && !f.sky then .ok .nowhere
  else if faceAlpha g m f < 1 || (g.q2 && (f.alphatest || f.trans33 || f.trans66)) then .ok .filter
  else if f.name.head? == some 123 then .ok .filter
  else if g.q2 && f.sky && (!g.arghrad || (f.light && f.value != 0)) then .ok .sky
  else if !g.q2 && begins [115, 107, 121] f.name then .ok .sky
  else if liquid g f then .ok (if m.isWorld then .nowhere else .solid)
  else if m.isWorld || m.shadow then .ok .solid
  else if m.shadowself || m.shadowworldonly then .ok .filter
  else .error

/-- `triinfo` (include/light/trace_embree.hh:173-190). -/
structure Tri where
  mdl : Mdl
  alpha : ℚ
  fence : Bool
  glass : Bool
  channel : Mask

/-- What is noted of each triangle of a face (light/trace_embree.cc:147-178). -/
def triinfo (g : Game) (m : Mdl) (f : Fc) : Tri where
  mdl := m
  alpha := faceAlpha g m f
  fence := if g.q2 then f.alphatest else f.name.head? == some 123
  glass := if g.q2 then !f.alphatest && (f.trans33 || f.trans66) else decide (faceAlpha g m f < 1)
  channel := f.mask.getD m.mask

/-- A texel: red, green, blue and alpha. -/
structure Texel where
  r : UInt8
  g : UInt8
  b : UInt8
  a : UInt8
  deriving DecidableEq

/-- A triangle on a ray: a face of a model, or a part of a model without faces, made from its leafs
(light/trace_embree.cc:217-282). -/
inductive Part
  | face (m : Mdl) (f : Fc)
  | leaf
  deriving DecidableEq

/-- A triangle on a ray: its distance, whether the ray runs against its normal, and the texel there. -/
structure Hit where
  part : Part
  dist : ℚ
  front : Bool
  texel : Texel
  deriving DecidableEq

abbrev Col := Fin 3 → ℚ

/-- The notes on a ray (include/light/trace_embree.hh:59-67): glass (colour and opacity) and style. -/
structure Notes where
  glass : Option (Col × ℚ)
  style : Int

/-- A ray that was not traced yet. -/
def fresh : Notes := ⟨none, 0⟩

/-- The colour of a texel, `sample.xyz() * (1.0f / 255.0f)` (light/trace_embree.cc:404). -/
def Texel.col (t : Texel) : Col := fun i => ((if i = 0 then t.r else if i = 1 then t.g else t.b).toNat : ℚ) / 255

/-- `AddGlassToRay` (light/trace_embree.cc:701-721). -/
def addGlass (n : Notes) (opacity : ℚ) (c : Col) : Notes := { n with glass := some (c, max 0 (min opacity 1)) }

/-- `Embree_FilterFuncN` for one hit (light/trace_embree.cc:335-422): the notes, and whether the hit is accepted. -/
def filterHit (src : Option Mdl) (mask : Mask) (t : Tri) (front : Bool) (s : Texel) (n : Notes) : Notes × Bool :=
  if t.channel &&& mask == 0 then (n, false)
  else if t.mdl.shadowworldonly && !(src.any (·.isWorld)) then (n, false)
  else if t.mdl.shadowself && !(src.any (·.id == t.mdl.id)) then (n, false)
  else if t.mdl.switchable then ({ n with style := t.mdl.style }, false)
  else if t.glass then
    (if front then addGlass n (if s.a < 255 then (s.a.toNat : ℚ) / 255 else t.alpha) s.col else n, false)
  else if t.fence && decide (s.a < 255) then (n, false)
  else (n, true)

/-- The filters Embree calls for a hit: that of its geometry (light/trace_embree.cc:684-685), then, for a ray with a mask of its
own, `PerRay_FilterFuncN` (429-461, 744-747), which fails for a triangle made from a leaf
(include/light/trace_embree.hh:210-221). -/
def callHit (g : Game) (src : Option Mdl) (mask : Mask) (h : Hit) (n : Notes) : Outcome (Notes × Bool) :=
  match h.part with
  | .leaf => if mask = 1 then .ok (n, true) else .error
  | .face m f =>
    match classify g m f with
    | .ok .nowhere => .ok (n, false)
    | .ok .filter =>
      let r := filterHit src mask (triinfo g m f) h.front h.texel n
      .ok (r.1, r.2 && (mask = 1 || (triinfo g m f).channel &&& mask != 0))
    | .ok _ => .ok (n, mask = 1 || (triinfo g m f).channel &&& mask != 0)
    | .error => .error
    | .ub => .ub

/-- `rtcOccluded1M` for one ray: filters are called for the hits, in some order, until one is accepted; the notes and whether
the ray is occluded (include/light/trace_embree.hh:341-356). -/
def occluded (g : Game) (src : Option Mdl) (mask : Mask) : List Hit → Notes → Outcome (Notes × Bool)
  | [], n => .ok (n, false)
  | h :: l, n => callHit g src mask h n >>= fun r => if r.2 then .ok (r.1, true) else occluded g src mask l r.1

/-- `rtcIntersect1M` for one ray: filters are called for the hits, in some order, unless they are behind the nearest accepted
one so far; the notes and the nearest accepted hit (include/light/trace_embree.hh:258-272). -/
def intersect (g : Game) (src : Option Mdl) (mask : Mask) : List Hit → Notes → Option Hit → Outcome (Notes × Option Hit)
  | [], n, best => .ok (n, best)
  | h :: l, n, best =>
    if best.any (fun b => b.dist < h.dist) then intersect g src mask l n best
    else callHit g src mask h n >>= fun r => intersect g src mask l r.1 (if r.2 then some h else best)

/-- `getPushedRayHitType` (include/light/trace_embree.hh:278-288): whether the hit is sky. -/
def isSky (g : Game) (h : Hit) : Bool :=
  match h.part with
  | .leaf => false
  | .face m f => match classify g m f with | .ok .sky => true | _ => false

/-- `getPushedRayColor` (include/light/trace_embree.hh:80-98). -/
def color (c : Col) (n : Notes) : Col :=
  match n.glass with
  | none => c
  | some (tint, o) => fun i => c i * (1 - o) + c i * tint i * o

/-- The style a light of a style adds to (light/ltface.cc:1282-1285, 1458-1461). -/
def styleOf (style : Int) (n : Notes) : Int := if style = 0 then n.style else style

end Verif.Shadow
