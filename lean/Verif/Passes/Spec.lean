import Verif.Passes.Model

/-!
What C217 says, apart from the model.
-/

namespace Verif.Passes.Spec

/-- A light that is cast on faces, of a sign. -/
def Cast (lamps : List Lamp) (p : ℚ → Prop) (i : ℕ) : Prop := ∃ l, lamps[i]? = some l ∧ l.localmin = false ∧ l.nostatic = false ∧ p l.light

/-- What the steps add to a sample or raise it to: lights by number, suns by number, surface lights, local minimum light, bounces by depth,
and the minimum of the face's model. -/
structure Effect where
  lamp : ℕ → ℚ
  sun : ℕ → ℚ
  surface : ℚ
  localMin : ℚ
  bounced : ℕ → ℚ
  autoMin : ℚ

/-- A sample of style 0 after a step. Minimum light raises. -/
def apply (e : Effect) (x : ℚ) : Step → ℚ
  | .entity i => x + e.lamp i
  | .sun i => x + e.sun i
  | .surface => x + e.surface
  | .localMin => max x e.localMin
  | .bounced d => x + e.bounced d
  | .min s v => if s = 0 then max x v else x
  | .autoMin => max x e.autoMin
  | .debug _ => x

/-- A sample after all steps, from darkness. -/
def result (e : Effect) (steps : List Step) : ℚ := steps.foldl (apply e) 0

/-- The sum of what lights of a sign add. -/
def lampSum (e : Effect) (p : ℚ → Bool) (lamps : List Lamp) : ℚ :=
  (lamps.zipIdx.map fun l => if l.1.localmin = false ∧ l.1.nostatic = false ∧ p l.1.light = true then e.lamp l.2 else 0).sum

/-- The sum of what suns of a sign add. -/
def sunSum (e : Effect) (p : ℚ → Bool) (ss : List ℚ) : ℚ := (ss.zipIdx.map fun s => if p s.1 = true then e.sun s.2 else 0).sum

end Verif.Passes.Spec
