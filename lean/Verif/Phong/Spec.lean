import Mathlib.Analysis.SpecialFunctions.Trigonometric.Inverse
import Mathlib.Analysis.Real.Sqrt
import Mathlib.Algebra.Order.Round
import Verif.Phong.Model

/-!
What phong shading promises, said without the functions that do it (docs/light.rst:666-700).
-/

namespace Verif.Phong

open Verif.Geom

/-- The functions of the C library over the reals. -/
noncomputable def realOps : Ops ℝ where
  cosDeg := fun a => Real.cos (a * Real.pi / 180)
  acos := Real.arccos
  len := fun v => Real.sqrt (dot v v)
  rint := round

/-- The angle between two unit vectors, in degrees. -/
noncomputable def degrees (a b : Vec ℝ) : ℝ := Real.arccos (dot a b) * 180 / Real.pi

/-- A vector of length one. -/
def IsUnit (v : Vec ℝ) : Prop := dot v v = 1

/-- The smoothing group of a surface: the number of `_phong_group`, or else the `value` of a surface that is no light. -/
def InGroup (t : Tex ℝ) (g : Int) : Prop :=
  (t.group ≠ 0 → g = t.group) ∧
    (t.group = 0 → (t.native % 2 = 1 → g = 0) ∧ (t.native % 2 = 0 → g = t.value))

/-- The angle of a surface for joints that are not concave: `_phong_angle`, or else 89 degrees within a group. -/
def ConvexLimit (t : Tex ℝ) (a : ℝ) : Prop :=
  (t.angle ≠ 0 → a = t.angle) ∧ (t.angle = 0 → (InGroup t 0 → a = 0) ∧ (¬InGroup t 0 → a = 89))

/-- The angle of a surface for concave joints: `_phong_angle_concave`, or else the other one. -/
def ConcaveLimit (t : Tex ℝ) (a : ℝ) : Prop :=
  (t.concave ≠ 0 → a = t.concave) ∧ (t.concave = 0 → ConvexLimit t a)

/-- The surface asks to be shaded smoothly. -/
def Asks (t : Tex ℝ) : Prop := t.noPhong = false ∧ (¬ConvexLimit t 0 ∨ ¬ConcaveLimit t 0)

/-- The middle of `g` is more than a tenth in front of the plane of `f`. -/
def InFront (b : Bsp ℝ) (f g : Face ℝ) : Prop :=
  dot (polyCentroid realOps (g.points b)) f.norm > f.dist + 1 / 10

/-- The angle of a surface for the joint of `f` and `g`. -/
def LimitAt (b : Bsp ℝ) (f g : Face ℝ) (t : Tex ℝ) (a : ℝ) : Prop :=
  (InFront b f g → ConcaveLimit t a) ∧ (¬InFront b f g → ConvexLimit t a)

/-- The faces have a vertex in common. -/
def Touch (f g : Face ℝ) : Prop := ∃ v, v ∈ f.verts ∧ v ∈ g.verts

/-- The face `f` is to be smoothed with `g`. -/
def ToSmooth (b : Bsp ℝ) (tex : Nat → Tex ℝ) (f g : Face ℝ) : Prop :=
  Touch f g ∧ Asks (tex f.tex) ∧ Asks (tex g.tex) ∧
    (∃ n, InGroup (tex f.tex) n ∧ InGroup (tex g.tex) n) ∧
    (∀ bit, b.mask.testBit bit → (tex f.tex).native.testBit bit = (tex g.tex).native.testBit bit) ∧
    (∀ a, LimitAt b f g (tex f.tex) a ∨ LimitAt b f g (tex g.tex) a → degrees f.norm g.norm ≤ a)

/-- The corners of a polygon: each vertex between the one before it and the one after it, around the polygon. -/
def around (vs : List Nat) : List (Nat × Nat × Nat) :=
  (vs.rotate (vs.length - 1)).zip (vs.zip (vs.rotate 1))

/-- The angle between two vectors, in radians; none if one of them is zero. -/
noncomputable def angle (a b : Vec ℝ) : ℝ :=
  if dot a a = 0 ∨ dot b b = 0 then 0 else Real.arccos (dot a b / (Real.sqrt (dot a a) * Real.sqrt (dot b b)))

/-- What the corners of `f` at `v` weigh together: the face's area times the angle at each of them. -/
noncomputable def WeightAt (b : Bsp ℝ) (f : Face ℝ) (v : Nat) : ℝ :=
  (((around f.verts).filter fun c => c.2.1 = v).map fun c =>
    polyArea realOps (f.points b) * angle (sub (b.pos c.1) (b.pos v)) (sub (b.pos c.2.2) (b.pos v))).sum

end Verif.Phong

namespace Verif.Phong

open Verif.Geom

/-- The normals of the faces, each as often as the face's corners at the vertex weigh. -/
noncomputable def Total (b : Bsp ℝ) (v : Nat) (fs : List (Face ℝ)) : Vec ℝ :=
  ⟨(fs.map fun f => WeightAt b f v * f.norm.x).sum, (fs.map fun f => WeightAt b f v * f.norm.y).sum,
    (fs.map fun f => WeightAt b f v * f.norm.z).sum⟩

end Verif.Phong
