import Verif.Place.Model

/-!
What moving a brush means, in terms of points.
-/

namespace Verif.Place.Spec

open Geom

variable {K : Type} [Field K] [LinearOrder K]

/-- The point is in the brush. -/
def In (fs : List (Face K)) (q : Vec K) : Prop := ∀ f ∈ fs, f.plane.distTo q ≤ 0

/-- The two texture coordinates of the face at a point. -/
def texAt (f : Face K) (q : Vec K) : K × K := (dot f.s.v q + f.s.d, dot f.t.v q + f.t.d)

/-- Turns by an angle with the given cosine and sine, around the three axes. The third turns the x axis towards the y axis,
the second the z axis towards the x axis, the first the y axis towards the z axis. -/
def turnX (c s : K) (q : Vec K) : Vec K := ⟨q.x, c * q.y - s * q.z, s * q.y + c * q.z⟩
def turnY (c s : K) (q : Vec K) : Vec K := ⟨c * q.x + s * q.z, q.y, c * q.z - s * q.x⟩
def turnZ (c s : K) (q : Vec K) : Vec K := ⟨c * q.x - s * q.y, s * q.x + c * q.y, q.z⟩

def stretch (sc q : Vec K) : Vec K := ⟨sc.x * q.x, sc.y * q.y, sc.z * q.z⟩

/-- Where a point of an external map comes to be: it is scaled, rolled, pitched, yawed, and moved. -/
def placed (env : Env K) (sc angles origin q : Vec K) : Vec K :=
  add (turnZ (env.cos angles.y) (env.sin angles.y) (turnY (env.cos angles.x) (env.sin angles.x)
    (turnX (env.cos angles.z) (env.sin angles.z) (stretch sc q)))) origin

/-- The direction of the plane of the face before it has length 1. -/
def spread (f : Face K) : Vec K := BrushBsp.cross (sub f.p0 f.p1) (sub f.p2 f.p1)

/-- The face is as `set_planepts` leaves it, and its points are not in one line. -/
def Proper (env : Env K) (f : Face K) : Prop :=
  spread f ≠ ⟨0, 0, 0⟩ ∧ f.plane = ⟨env.normalize (spread f), dot f.p1 (env.normalize (spread f))⟩

/-- `qv::normalize` makes vectors shorter or longer; the vector 0 it leaves as it is. -/
def Normalizes (env : Env K) : Prop :=
  env.normalize ⟨0, 0, 0⟩ = ⟨0, 0, 0⟩ ∧
  ∀ v, v ≠ ⟨0, 0, 0⟩ → ∃ k, 0 < k ∧ env.normalize v = ⟨k * v.x, k * v.y, k * v.z⟩

/-- A point of the circle. -/
def Circular (env : Env K) : Prop := ∀ a, env.cos a * env.cos a + env.sin a * env.sin a = 1

end Verif.Place.Spec
