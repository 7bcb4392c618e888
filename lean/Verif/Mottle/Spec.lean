import Verif.Mottle.Model

/-!
What C214 says, apart from the model.
-/

namespace Verif.Mottle.Spec

/-- The 256 values of the noise on a lattice of 16 units, which repeats in every direction. -/
def lattice (i j k : ℤ) : ℕ := perm ((perm ((perm (i % 256).toNat + (j % 256).toNat) % 256) + (k % 256).toNat) % 256)

/-- Linear interpolation between the values at the integers. -/
def lerp (g : ℤ → ℚ) (x : ℚ) : ℚ := g ⌊x⌋ * (1 - (x - ⌊x⌋)) + g (⌊x⌋ + 1) * (x - ⌊x⌋)

/-- The noise without rounding, at a place in units of the lattice. -/
def noise (x y z : ℚ) : ℚ := lerp (fun k => lerp (fun j => lerp (fun i => (lattice i j k : ℚ)) x) y) z

/-- A coordinate whose cell has a number that is an `int` and can be negated. -/
def InRange (p : ℚ) : Prop := -2147483648 < ⌊p / 16⌋ ∧ ⌊p / 16⌋ ≤ 2147483647

instance (p : ℚ) : Decidable (InRange p) := by unfold InRange; infer_instance

end Verif.Mottle.Spec
