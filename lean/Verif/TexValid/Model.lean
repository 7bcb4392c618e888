import Mathlib.Algebra.Order.Floor.Ring
import Verif.TexDef.Model
import Verif.BrushBsp.Model

/-!
Model of what qbsp does with the texture vectors of a side of a brush after it has read them: it rounds them, repairs them if
the texture would be seen edge-on, and resets them on sides that are not drawn (qbsp/map.cc:1938-1980, 2004-2025).

Simplifications: arithmetic is exact, so that there are no numbers that are not numbers. The messages and the count of repairs
are left out.
-/

namespace Verif.TexValid

open Geom TexDef
open BrushBsp (cross)

variable {K : Type} [Field K] [LinearOrder K]

/-- `qv::normalize` (include/common/qvec.hh:455-460). -/
def normalize (env : Env K) (v : Vec K) : Vec K :=
  if env.len v ≠ 0 then ⟨v.x / env.len v, v.y / env.len v, v.z / env.len v⟩ else v

/-- `IsValidTextureProjection` (qbsp/map.cc:1938-1960): `eps` is `ZERO_EPSILON` (include/common/mathlib.hh:67). -/
def isValid (env : Env K) (eps : K) (n : Vec K) (x : Tex K) : Bool :=
  let cosangle := dot (normalize env (cross x.s.v x.t.v)) n
  if |cosangle| < eps then false else true

/-- No shift, no rotation, no scale (qbsp/map.cc:1973-1975, 2010). -/
def plain : Ed K := ⟨(0, 0), 0, (1, 1)⟩

/-- `ValidateTextureProjection` (qbsp/map.cc:1962-1980), with its `Q_assert`. -/
def validate (env : Env K) (eps : K) (n : Vec K) (x : Tex K) : Outcome (Tex K) :=
  if isValid env eps n x then .ok x
  else if isValid env eps n (quakeEd env n plain) then .ok (quakeEd env n plain) else .error

variable [FloorRing K]

/-- `Q_rint` (include/common/mathlib.hh:88-92). -/
def rint (x : K) : K := (⌊x + 1 / 2⌋ : K)

/-- The body of the loops (qbsp/map.cc:2018-2020). -/
def snap (eps x : K) : K := if |x - rint x| < eps then rint x else x

/-- One row (qbsp/map.cc:2017-2021). -/
def snapRow (eps : K) (r : Place.Row K) : Place.Row K := ⟨⟨snap eps r.v.x, snap eps r.v.y, snap eps r.v.z⟩, snap eps r.d⟩

/-- The loops (qbsp/map.cc:2016-2022). -/
def snapTex (eps : K) (x : Tex K) : Tex K := ⟨snapRow eps x.s, snapRow eps x.t⟩

/-- The flags of a side that matter here. -/
structure Flags where
  nodraw : Bool
  hint : Bool
  hintskip : Bool
  deriving DecidableEq

/-- The end of `ParseBrushFace` (qbsp/map.cc:2007-2025). The axes of a side that is not drawn come from `texture_axis_t`
(include/common/mapfile.hh:80, common/mapfile.cc:210-257), which is not told of `-oldaxis` and takes the old axes. -/
def finish (env : Env K) (eps : K) (f : Flags) (n : Vec K) (x : Tex K) : Outcome (Tex K) :=
  if f.nodraw || f.hintskip || f.hint then .ok (quakeEd { env with old := true } n plain)
  else validate env eps n (snapTex eps x)

end Verif.TexValid
