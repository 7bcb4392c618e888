import Verif.BrushList.Model

/-!
What C222 says, apart from the model.
-/

namespace Verif.BrushList.Spec

/-- The side of a plane a brush is on. -/
def Behind (p : Fin 3 → ℚ) (q : Plane) : Prop := q.n 0 * p 0 + q.n 1 * p 1 + q.n 2 * p 2 ≤ q.dist

/-- The points of a brush. -/
def InBrush (b : Brush) (p : Fin 3 → ℚ) : Prop := ∀ q ∈ b.planes, Behind p q

/-- The points of a listed brush, as an engine reads it: those of a box that are behind some planes. -/
def InListed (l : Listed) (p : Fin 3 → ℚ) : Prop := (∀ i, l.mins i ≤ p i ∧ p i ≤ l.maxs i) ∧ ∀ q ∈ l.faces, Behind p q

/-- A plane whose normal is along an axis if one of its coordinates is 1 or -1. -/
def Normal (q : Plane) : Prop := ∀ i j, q.n i = 1 ∨ q.n i = -1 → j ≠ i → q.n j = 0

/-- The bounds of a brush are the least box around it. -/
def Tight (b : Brush) : Prop :=
  (∀ p, InBrush b p → ∀ i, b.mins i ≤ p i ∧ p i ≤ b.maxs i) ∧
  ∀ i, (∃ p, InBrush b p ∧ p i = b.mins i) ∧ (∃ p, InBrush b p ∧ p i = b.maxs i)

/-- The contents an engine knows. -/
def contents (c : Contents.Contents) : Int :=
  if Contents.Q1.isClip c then -8
  else if Contents.tst c Contents.SOLID then -2
  else if Contents.tst c Contents.SKY then -6
  else if Contents.tst c Contents.LAVA then -5
  else if Contents.tst c Contents.SLIME then -4
  else if Contents.tst c Contents.WATER then -3
  else -1

/-- An entity with a model of its own, of this number. -/
def HasModel (e : Entity) (n : Int) : Prop :=
  OnlyEnts.removed (OnlyEnts.get e.keys "classname".toList) = false ∧
  ∃ t, OnlyEnts.get e.keys "model".toList = '*' :: t ∧ stoi t = some n

/-- A class of entities whose brushes the world gets and which can be touched. -/
def Group (c : OnlyEnts.Str) : Prop :=
  OnlyEnts.ieq c "func_detail".toList = true ∨ OnlyEnts.ieq c "func_group".toList = true ∨
  OnlyEnts.ieq c "func_detail_wall".toList = true ∨ OnlyEnts.ieq c "func_detail_fence".toList = true

end Verif.BrushList.Spec
