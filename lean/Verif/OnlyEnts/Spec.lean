import Verif.OnlyEnts.Model

/-!
What C220 and C221 say, apart from the model.
-/

namespace Verif.OnlyEnts.Spec

/-- The models of a list of entities: those with a model of their own are numbered from `n` on, the others keep what is written. -/
def models (n : Nat) : List (Bool × Option Str) → List (Option Str)
  | [] => []
  | (true, _) :: t => some ('*' :: Nat.toDigits 10 n) :: models (n + 1) t
  | (false, m) :: t => m :: models n t

/-- The classes whose brushes are added to the world. -/
def worldClasses : List Str :=
  ["func_detail", "func_group", "func_detail_illusionary", "func_detail_wall", "func_detail_fence", "func_illusionary_visblocker",
    "func_areaportal"].map String.toList

/-- An entity with a model of its own: it has brushes, and they are not added to the world. -/
def HasModel (brushes : List Brush) (classname : Str) : Prop := brushes ≠ [] ∧ merged classname = false

/-- The keys `model` of some entities. -/
def modelKeys (es : List Entity) : List (Option Str) := es.map fun e => find e.keys "model".toList

/-- No brush of the entity, or of its external map, is an origin brush. -/
def NoOrigin (env : Env) (e : Entity) : Prop :=
  (∀ b ∈ e.brushes, b.origin = none) ∧
  (ieq (get e.keys "classname".toList) "misc_external_map".toList = true → ∀ b ∈ env.external (get e.keys "_external_map".toList), b.origin = none)

end Verif.OnlyEnts.Spec
