import Verif.Suns.Model

/-!
What is said about suns, apart from how they are made.
-/

namespace Verif.Suns

open Verif.Geom Verif.Phong

/-- The light of all suns together. -/
noncomputable def total (suns : List Sun) : ℝ := (suns.map (·.light)).sum

/-- The direction a sun shines in: `vec` points to the sun and is 16384 units long. -/
noncomputable def shine (s : Sun) : Vec ℝ := smul (-1 / 16384) s.vec

/-- The sun looks as asked for. -/
def Looks (cfg : Cfg) (k : Look) (s : Sun) : Prop :=
  s.color = k.color ∧ s.anglescale = k.anglescale ∧ s.style = k.style ∧ s.texture = k.texture ∧
    (k.dirt = 1 → s.dirt = true) ∧ (k.dirt = -1 → s.dirt = false) ∧
    (k.dirt ≠ 1 → k.dirt ≠ -1 → s.dirt = cfg.dirt)

/-- `Random()` gives numbers from 0 to 1. -/
def Draws (r : ℕ → ℝ) : Prop := ∀ n, 0 ≤ r n ∧ r n ≤ 1

/-- `d` is the unit vector in the direction of `v`. -/
def DirOf (d v : Vec ℝ) : Prop := dot d d = 1 ∧ ∃ c : ℝ, 0 < c ∧ v = smul c d

/-- Two names that differ in nothing but the case of ASCII letters. -/
def SameName (a b : List UInt8) : Prop := a.map Cmdlib.toLower = b.map Cmdlib.toLower

/-- The sum of the vectors of suns. -/
noncomputable def vecSum (suns : List Sun) : Vec ℝ := suns.foldr (fun s v => add s.vec v) ⟨0, 0, 0⟩

end Verif.Suns
