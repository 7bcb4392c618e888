import Verif.BrushBsp.Windings
import Mathlib.Algebra.Order.Field.Rat

/-! C96: a closed brush that leaves the world leads to undefined behaviour. -/

namespace Verif.BrushBsp.Ex2

open Geom

/-- The planes of a prism over a triangle: `x >= 0`, `y >= 0`, `3/5 x + 4/5 y <= 3600`, `0 <= z <= 64`. -/
def planes (n : Nat) : Plane ℚ :=
  let e : Plane ℚ := match n / 2 with
    | 0 => ⟨⟨1, 0, 0⟩, 0⟩
    | 1 => ⟨⟨0, 1, 0⟩, 0⟩
    | 2 => ⟨⟨3 / 5, 4 / 5, 0⟩, 3600⟩
    | 3 => ⟨⟨0, 0, 1⟩, 0⟩
    | _ => ⟨⟨0, 0, 1⟩, 64⟩
  if n % 2 = 0 then e else ⟨⟨-e.normal.x, -e.normal.y, -e.normal.z⟩, -e.dist⟩

def env : Env ℚ (List Nat) where
  planes := planes
  base := fromPlane id 4096
  area := fun _ => 0
  worldextent := 4096
  microvolume := 0
  huge := 100000
  isDetail := fun _ => false
  empty := []
  combine := fun a b => a ++ b
  metric := fun _ _ => 0
  midsplit := fun _ _ => false

def side (n : Nat) : Side ℚ := ⟨n, [], false, false, true, false, false⟩

def prism : Brush ℚ (List Nat) := ⟨[1, 3, 4, 7, 8].map side, ⟨⟨0, 0, 0⟩, ⟨0, 0, 0⟩⟩, [1], 0⟩

/-- C96, negation: a closed brush (a prism over a triangle) with corners outside of the world makes
`CreateBrushWindings` read the value of an empty optional. -/
theorem windings_undefined : createWindings env (1 / 10000) prism = .ub := by decide +kernel

end Verif.BrushBsp.Ex2
