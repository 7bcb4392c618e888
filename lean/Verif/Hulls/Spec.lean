import Verif.Hulls.Model
import Verif.BrushBsp.LeafSpec

/-! Specification of the brushes that are grown: the points of a brush, polygons that close it, the sum of a brush and
a box, and the exactness of the arithmetic that the exact claim assumes. -/

namespace Verif.Hulls.Spec

open Geom Geom.Spec BrushBsp.Spec

variable {K : Type} [Field K] [LinearOrder K]

/-- The sum of two vectors. -/
def plus (a b : Vec K) : Vec K := ⟨a.x + b.x, a.y + b.y, a.z + b.z⟩

/-- The difference of two vectors. -/
def minus (a b : Vec K) : Vec K := ⟨a.x - b.x, a.y - b.y, a.z - b.z⟩

/-- The point is behind the planes of all faces. -/
def Inside (fs : List (Face K)) (q : Vec K) : Prop := ∀ f ∈ fs, f.plane.distTo q ≤ 0

/-- The point is behind the planes of all sides. -/
def InSides (ss : List (Side K)) (q : Vec K) : Prop := ∀ s ∈ ss, s.plane.distTo q ≤ 0

/-- The corners of all polygons. -/
def corners (fs : List (Face K)) : List (Vec K) := fs.flatMap (·.w)

/-- The polygons of the faces close the body: they are convex, lie in the planes of their faces and belong to the body,
each one has all points of the body that are on its plane, and there is a point strictly inside. -/
structure Closed (fs : List (Face K)) : Prop where
  unit : ∀ f ∈ fs, UnitNormal f.plane
  convex : ∀ f ∈ fs, ConvexPoly f.w
  own : ∀ f ∈ fs, ∀ v ∈ f.w, f.plane.distTo v = 0
  verts : ∀ f ∈ fs, ∀ v ∈ f.w, Inside fs v
  border : ∀ f ∈ fs, ∀ q, Inside fs q → f.plane.distTo q = 0 → InHull f.w q
  core : ∃ c, ∀ f ∈ fs, f.plane.distTo c < 0
  bounded : ∃ r, ∀ q, Inside fs q → dot q q ≤ r

/-- The box of the player when they stand at the point: the hull that the game gives is the box turned over. -/
def InPlayer (hull : BrushBsp.Bounds K) (at_ q : Vec K) : Prop := InBox hull (minus at_ q)

/-- A plane parts the brush from the box of the player at the point: there is a direction in which all points of the
brush are less far than all points of the box. -/
def Parted (hull : BrushBsp.Bounds K) (fs : List (Face K)) (at_ : Vec K) : Prop :=
  ∃ g : Vec K, ∀ q r, Inside fs q → InPlayer hull at_ r → dot g q < dot g r

/-- The direction is along no axis. -/
def Slant (d : Vec K) : Prop := (d.x ≠ 0 ∧ d.y ≠ 0) ∨ (d.y ≠ 0 ∧ d.z ≠ 0) ∨ (d.x ≠ 0 ∧ d.z ≠ 0)

/-- The vector points in the same direction. -/
def SameDir (a b : Vec K) : Prop := ∃ k, 0 < k ∧ a = ⟨k * b.x, k * b.y, k * b.z⟩

/-- No tolerance plays a role: planes are entered as they are and are taken for the same only if they are equal, and
the edges of the polygons that are along no axis are neither too short nor too close to an axis to be regarded. -/
structure Exact (env : Env K) (fs : List (Face K)) : Prop where
  store : ∀ p, env.store p = p
  near : ∀ p q, env.near p q = true → p = q
  eps : 0 ≤ env.epsilon
  edge : ∀ f ∈ fs, ∀ e ∈ edges f.w, Slant (minus e.1 e.2) →
    1 / 2 ≤ (env.normalize (minus e.1 e.2)).2 ∧
    SameDir (env.snap (env.normalize (minus e.1 e.2)).1) (minus e.1 e.2) ∧
    ¬ (∃ axis, axis < 3 ∧ (comp axis (env.snap (env.normalize (minus e.1 e.2)).1) = -1 ∨
      comp axis (env.snap (env.normalize (minus e.1 e.2)).1) = 1)) ∧
    ∀ axis (d : K), axis < 3 → d = 1 ∨ d = -1 →
      let c := BrushBsp.cross (env.snap (env.normalize (minus e.1 e.2)).1) (unitVec axis d)
      env.angleEpsilon ≤ (env.normalize c).2 ∧ SameDir (env.normalize c).1 c

end Verif.Hulls.Spec
