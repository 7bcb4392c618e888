import Verif.TexValid.Model
import Verif.TexDef.Spec

/-!
What is expected of the texture vectors of a side.
-/

namespace Verif.TexValid.Spec

open Geom TexDef

variable {K : Type} [Field K] [LinearOrder K]

/-- The normal is of length 1. -/
def UnitLength (n : Vec K) : Prop := n.x * n.x + n.y * n.y + n.z * n.z = 1

/-- Different points of a face have different texture coordinates: the texture is not smeared to a line. -/
def Faithful (n : Vec K) (x : Tex K) : Prop := ∀ p q : Vec K, dot n p = dot n q → x.uvs p = x.uvs q → p = q

/-- The normal of the texture, to which both texture axes are perpendicular, is perpendicular to the normal of the face, or
the cosine of the angle between them is less than `eps`, or the texture has no normal. -/
def EdgeOn (eps : K) (n : Vec K) (x : Tex K) : Prop :=
  let c := BrushBsp.cross x.s.v x.t.v
  dot c c = 0 ∨ dot c n * dot c n < eps * eps * dot c c

/-- The eight numbers of the two rows, in their order. -/
def numbers (x : Tex K) : List K := [x.s.v.x, x.s.v.y, x.s.v.z, x.s.d, x.t.v.x, x.t.v.y, x.t.v.z, x.t.d]

/-- What rounding makes of a number: an integer that is nearer than `eps`, if there is one, or else the number. -/
def Rounded (eps a b : K) : Prop := (∀ z : Int, |a - z| < eps → b = z) ∧ ((∀ z : Int, eps ≤ |a - z|) → b = a)

/-- The sine and the cosine of 0 degrees. -/
structure Zero (env : Env K) : Prop where
  cos : env.cosd 0 = 1
  sin : env.sind 0 = 0

end Verif.TexValid.Spec
