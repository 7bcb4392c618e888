import Verif.FaceKeys.Model

/-!
What C218 and C219 say, apart from the model.
-/

namespace Verif.FaceKeys.Spec

/-- The first setting that is made, in the order of precedence, or the default. -/
def first {α : Type} (l : List (Option α)) (default : α) : α := (l.findSome? id).getD default

/-- Minimum light is given from 0 to 1 in Quake II, in steps of 1/128. -/
def unit (quake2 : Bool) : ℚ := if quake2 then 128 else 1

/-- The scale an engine uses for a face: that of the LMSHIFT lump. -/
def engineScale (lump : List ℕ) (i : ℕ) : Option ℚ := lump[i]?.map fun b => (2 : ℚ) ^ b

end Verif.FaceKeys.Spec
