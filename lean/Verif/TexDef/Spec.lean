import Verif.TexDef.Model

/-!
What texture definitions mean, in terms of points and texture coordinates.
-/

namespace Verif.TexDef.Spec

open Geom

variable {K : Type} [Field K] [LinearOrder K]

/-- The projection of a point along the axis that is nearest to the normal `n`, as seen with the second coordinate
downwards. Of axes that are equally near, y goes before x and x before z; with the option `-oldaxis` the other way round. -/
def flat (old : Bool) (n p : Vec K) : K × K :=
  if old then
    if |n.x| ≤ |n.z| ∧ |n.y| ≤ |n.z| then (p.x, -p.y) else if |n.y| ≤ |n.x| then (p.y, -p.z) else (p.x, -p.z)
  else
    if |n.x| ≤ |n.y| ∧ |n.z| ≤ |n.y| then (p.x, -p.z) else if |n.z| ≤ |n.x| then (p.y, -p.z) else (p.x, -p.y)

/-- The texture coordinates of the editor of Quake: the projected point is turned by the angle, divided by the scale, where
a scale of 0 is none, and shifted. -/
def edUV (env : Env K) (n : Vec K) (e : Ed K) (p : Vec K) : K × K :=
  let f := flat env.old n p
  ((env.cosd e.rotate * f.1 - env.sind e.rotate * f.2) / (if e.scale.1 = 0 then 1 else e.scale.1) + e.shift.1,
   (env.sind e.rotate * f.1 + env.cosd e.rotate * f.2) / (if e.scale.2 = 0 then 1 else e.scale.2) + e.shift.2)

/-- The functions are what they are called. -/
structure Maths (env : Env K) : Prop where
  circle : ∀ a, env.cosd a * env.cosd a + env.sind a * env.sind a = 1
  hyp_sq : ∀ x y, env.hyp x y * env.hyp x y = x * x + y * y
  hyp_nonneg : ∀ x y, 0 ≤ env.hyp x y
  cos_ang : ∀ x y, env.cosd (env.angd y x) * env.hyp x y = x
  sin_ang : ∀ x y, env.sind (env.angd y x) * env.hyp x y = y
  cos_neg : ∀ a, env.cosd (-a) = env.cosd a
  sin_neg : ∀ a, env.sind (-a) = -env.sind a
  len_sq : ∀ v, env.len v * env.len v = dot v v

/-- What of `float` and of the conversion to `int` matters: integers up to 2^24 are exact, and so is the difference between
a smaller `float` and a smaller integer; numbers from 2^31 are multiples of 128, and stay
above 2^31. The conversion drops the fraction. -/
structure Floats (env : Env K) : Prop where
  int : ∀ k : Nat, k ≤ 2 ^ 24 → env.fl (k : K) = (k : K)
  sub : ∀ (x : K) (k : Nat), env.fl x = x → x < 2 ^ 24 → (k : K) ≤ x → env.fl (x - (k : K)) = x - (k : K)
  coarse : ∀ x : K, 2 ^ 31 ≤ |x| → ∃ z : Int, env.fl x = 128 * (z : K)
  large : ∀ x : K, 2 ^ 31 ≤ x → 2 ^ 31 ≤ env.fl x
  trunc_pos : ∀ x : K, 0 ≤ x → x < 2 ^ 31 → ∃ k : Nat, env.trunc x = some (k : Int) ∧ (k : K) ≤ x ∧ x < (k : K) + 1
  trunc_neg : ∀ x : K, x ≤ 0 → -2 ^ 31 < x → ∃ k : Nat, env.trunc x = some (-(k : Int)) ∧ (k : K) ≤ -x ∧ -x < (k : K) + 1

/-- The point is on the plane through `p0` that is perpendicular to `n`. -/
def OnFace (n p0 q : Vec K) : Prop := dot n q = dot n p0

/-- The three points of a face: they are on its plane and not in a line. -/
def Corners (n p0 p1 p2 : Vec K) : Prop :=
  OnFace n p0 p1 ∧ OnFace n p0 p2 ∧ BrushBsp.cross (Place.sub p1 p0) (Place.sub p2 p0) ≠ ⟨0, 0, 0⟩

end Verif.TexDef.Spec
