import Verif.SunRay.Model

/-!
What C216 says, apart from the model.
-/

namespace Verif.SunRay.Spec

open Verif.Geom Verif.Illum

/-- The cosine of the angle between a direction and a normal of length one. -/
noncomputable def cosine (dir n : Vec ℝ) : ℝ := dot dir n / len dir

/-- A vector of length one. -/
def Normed (n : Vec ℝ) : Prop := dot n n = 1

/-- The largest part of a direction along an axis, as a share of its length. -/
noncomputable def axial (dir : Vec ℝ) : ℝ := max |dir.x| (max |dir.y| |dir.z|) / len dir

end Verif.SunRay.Spec
