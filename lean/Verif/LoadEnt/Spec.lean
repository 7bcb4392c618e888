import Mathlib.Data.Fin.VecNotation
import Verif.LoadEnt.Model
import Verif.OnlyEnts.Spec

/-!
What is expected.
-/

namespace Verif.LoadEnt.Spec

open Geom
open OnlyEnts (Str)

/-- The value of a key of an entity. -/
def val (e : Ent) (key : String) : Str := OnlyEnts.get e.keys key.toList

/-- The entity is an area portal, whatever the case of the class. -/
def IsPortal (e : Ent) : Prop := (val e "classname").map Char.toLower = "func_areaportal".toList

instance (e : Ent) : Decidable (IsPortal e) := inferInstanceAs (Decidable (_ = _))

/-- How many area portals there are among the first `i` entities. -/
def portalsBefore (es : List Ent) (i : Nat) : Nat := ((es.take i).filter fun e => IsPortal e).length

/-- The brushes of the entities whose class is one of those that are merged into the world, in their order. -/
def mergedBrushes (es : List Ent) : List Nat :=
  (es.filter fun e => decide ((val e "classname").map Char.toLower ∈ OnlyEnts.Spec.worldClasses)).flatMap fun e => e.brushes

/-- What becomes of an area portal with a number. -/
structure Numbered (n : Nat) (e e' : Ent) : Prop where
  portal : e'.portal = n
  style : val e' "style" = Nat.toDigits 10 n
  keys : ∀ k, k ≠ "style".toList → OnlyEnts.get e'.keys k = OnlyEnts.get e.keys k
  brushes : e'.brushes = e.brushes

variable {K : Type} [Field K] [LinearOrder K]

/-- Turning a point around the vertical axis, by the angle with the cosine `c` and the sine `s`. -/
def turnZ (c s : K) (p : Pt K 3) : Pt K 3 := ![c * p 0 - s * p 1, s * p 0 + c * p 1, p 2]

end Verif.LoadEnt.Spec
