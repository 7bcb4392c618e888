import Mathlib.Analysis.SpecialFunctions.Trigonometric.Arctan
import Verif.Common.Outcome
import Verif.Suns.Model
import Verif.Textures.Model

/-!
Model of lights that project a texture: the matrix (light/entities.cc:695-870), the keys that aim it
(light/entities.cc:1006-1049) and the projection of a point (light/ltface.cc:890-957).

Simplifications: `float` and `double` are replaced by the reals, that is, arithmetic is exact. A division by zero is 0
and not infinite or NaN; it happens only at points that count as too close.
-/

namespace Verif.Projector

open Verif.Geom

/-- `std::array<T, 16>`: four columns of four numbers. -/
abbrev Mat := ℕ → ℝ

/-- `qvec<T, 4>`. -/
structure Vec4 where
  x : ℝ
  y : ℝ
  z : ℝ
  w : ℝ

/-- `Matrix4x4_CM_Projection_Inf` (light/entities.cc:695-732). -/
noncomputable def infinite (fovx fovy neard : ℝ) : Mat :=
  let ymax := neard * Real.tan (fovy * Real.pi / 360)
  let ymin := -ymax
  let xmax := if fovx = fovy then ymax else neard * Real.tan (fovx * Real.pi / 360)
  let xmin := if fovx = fovy then ymin else -xmax
  fun
    | 0 => 2 * neard / (xmax - xmin)
    | 8 => (xmax + xmin) / (xmax - xmin)
    | 5 => 2 * neard / (ymax - ymin)
    | 9 => (ymax + ymin) / (ymax - ymin)
    | 10 => -1 * (1 / 2)
    | 14 => -2 * neard * 1
    | 11 => -1
    | _ => 0

/-- `Matrix4x4_CM_NewRotation` (light/entities.cc:734-760). -/
noncomputable def rotation (a x y z : ℝ) : Mat :=
  let c := Real.cos (a * Real.pi / 180)
  let s := Real.sin (a * Real.pi / 180)
  fun
    | 0 => x * x * (1 - c) + c
    | 4 => x * y * (1 - c) - z * s
    | 8 => x * z * (1 - c) + y * s
    | 1 => y * x * (1 - c) + z * s
    | 5 => y * y * (1 - c) + c
    | 9 => y * z * (1 - c) - x * s
    | 2 => x * z * (1 - c) - y * s
    | 6 => y * z * (1 - c) + x * s
    | 10 => z * z * (1 - c) + c
    | 15 => 1
    | _ => 0

/-- `Matrix4x4_CM_NewTranslation` (light/entities.cc:762-785). -/
noncomputable def translation (x y z : ℝ) : Mat
  | 0 => 1
  | 5 => 1
  | 10 => 1
  | 15 => 1
  | 12 => x
  | 13 => y
  | 14 => z
  | _ => 0

/-- `Matrix4_Multiply` (light/entities.cc:787-809). -/
noncomputable def multiply (a b : Mat) : Mat := fun n =>
  a (n % 4) * b (n / 4 * 4) + a (n % 4 + 4) * b (n / 4 * 4 + 1) + a (n % 4 + 8) * b (n / 4 * 4 + 2)
    + a (n % 4 + 12) * b (n / 4 * 4 + 3)

/-- The matrix that `Matrix4x4_CM_ModelViewMatrix` starts with (light/entities.cc:817-832). -/
noncomputable def axes : Mat
  | 2 => -1
  | 4 => -1
  | 9 => 1
  | 15 => 1
  | _ => 0

/-- `Matrix4x4_CM_ModelViewMatrix` (light/entities.cc:811-842). -/
noncomputable def modelView (angles org : Vec ℝ) : Mat :=
  multiply (multiply (multiply (multiply axes (rotation (-angles.z) 1 0 0)) (rotation angles.y 0 1 0))
    (rotation (-angles.x) 0 0 1)) (translation (-org.x) (-org.y) (-org.z))

/-- `Matrix4x4_CM_MakeModelViewProj` (light/entities.cc:844-854). -/
noncomputable def modelViewProj (angles org : Vec ℝ) (fovx fovy : ℝ) : Mat :=
  multiply (infinite fovx fovy 4) (modelView angles org)

/-- `CalcFov` (light/entities.cc:856-870). -/
noncomputable def calcFov (fov width height : ℝ) : Outcome ℝ :=
  if fov < 1 ∨ fov > 179 then .error
  else .ok (Real.arctan (height / (width / Real.tan (fov / 360 * Real.pi))) * 360 / Real.pi)

/-- The matrix of a light with the image (light/entities.cc:1037-1049). -/
noncomputable def matrixFor (angles org : Vec ℝ) (fov : ℝ) (width height : Nat) : Outcome Mat :=
  if width > height then
    (calcFov fov width height) >>= fun fovy => .ok (modelViewProj angles org fov fovy)
  else (calcFov fov height width) >>= fun fovx => .ok (modelViewProj angles org fovx fov)

/-- `Matrix4x4_CM_Transform4` (light/ltface.cc:890-897). -/
noncomputable def transform (m : Mat) (v : Vec4) : Vec4 :=
  ⟨m 0 * v.x + m 4 * v.y + m 8 * v.z + m 12 * v.w,
   m 1 * v.x + m 5 * v.y + m 9 * v.z + m 13 * v.w,
   m 2 * v.x + m 6 * v.y + m 10 * v.z + m 14 * v.w,
   m 3 * v.x + m 7 * v.y + m 11 * v.z + m 15 * v.w⟩

/-- `Matrix4x4_CM_Project` (light/ltface.cc:899-919): the result, and the first two coordinates. -/
noncomputable def project (m : Mat) (p : Vec ℝ) : Bool × ℝ × ℝ :=
  let v := transform m ⟨p.x, p.y, p.z, 1⟩
  (!decide (v.z < 0) && !decide ((1 + v.z / v.w) / 2 > 1), (1 + v.x / v.w) / 2, (1 + v.y / v.w) / 2)

/-- `LightFace_SampleMipTex` (light/ltface.cc:921-956). -/
noncomputable def sample (t : Textures.Texture) (m : Mat) (p : Vec ℝ) : Outcome (Option (ℝ × ℝ × ℝ)) :=
  Textures.sampleMipTex t (project m p).1 (project m p).2.1 (project m p).2.2

/-- The keys that aim a light: `mangle` and `project_mangle` where they are given, `angles`, the place of the light and
that of its target. -/
structure Keys where
  mangle : Option (Vec ℝ)
  projMangle : Option (Vec ℝ)
  angles : Vec ℝ
  origin : Vec ℝ
  target : Option (Vec ℝ)

/-- The angles of the projection of a light with `project_texture` (light/entities.cc:1006-1035). -/
noncomputable def projAngles (k : Keys) : Vec ℝ :=
  match k.projMangle with
  | some p => p
  | none => match k.mangle with
    | some m => m
    | none => ⟨k.angles.y, -k.angles.x, k.angles.z⟩

/-- `spotlight` and `spotvec` of a light with `project_texture` after loading (light/entities.cc:1006-1035) and after
`SetupSpotlights` (light/entities.cc:261-268): none where it is no spotlight. -/
noncomputable def spotVec (k : Keys) : Option (Vec ℝ) :=
  match k.target with
  | some t =>
    let d := Illum.vsub t k.origin
    some (if Illum.len d = 0 then d else Illum.smul (1 / Illum.len d) d)
  | none => match k.mangle with
    | some m => some (Suns.vecFromMangle m)
    | none => if k.projMangle.isNone then some ⟨0, 0, 0⟩ else none

/-- The cone of the light (light/entities.cc:269-294). -/
noncomputable def spot (k : Keys) (base soft : ℝ) : Option Illum.Spot :=
  (spotVec k).map fun v => Illum.setupSpot v base soft

end Verif.Projector
