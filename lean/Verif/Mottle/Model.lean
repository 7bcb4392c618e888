import Verif.Common.Outcome
import Mathlib.Data.Rat.Floor
import Mathlib.Tactic.Linarith

/-!
Model of the noise that is added to the minimum light (light/ltface.cc:1546-1642).

Simplification: exact numbers in place of `float`.
-/

namespace Verif.Mottle

/-- `mod_round_to_neg_inf` (light/ltface.cc:1548-1557), without its assertion. -/
def modNeg (x y : Int) : Int := if 0 ≤ x then x.tmod y else y - (-x).tmod y

/-- `MottlePermutation256` (light/ltface.cc:1568-1578). -/
def permutation : List Nat :=
  [11, 255, 250, 82, 217, 9, 144, 93, 136, 153, 55, 71, 73, 204, 96, 180, 126, 8, 50, 46, 113, 91, 238, 143, 30, 215,
   191, 243, 65, 58, 208, 33, 86, 1, 182, 118, 83, 115, 207, 52, 94, 112, 205, 48, 99, 254, 117, 101, 157, 140, 72,
   242, 244, 154, 10, 135, 155, 168, 125, 183, 148, 116, 187, 166, 25, 156, 177, 231, 165, 57, 221, 105, 28, 211,
   127, 41, 142, 253, 146, 87, 122, 229, 162, 137, 194, 174, 167, 15, 220, 26, 235, 3, 39, 80, 88, 42, 202, 12, 97,
   53, 70, 123, 170, 110, 214, 192, 173, 84, 169, 188, 64, 102, 147, 158, 100, 69, 213, 193, 43, 20, 13, 237, 171,
   103, 32, 190, 223, 150, 131, 206, 85, 124, 163, 18, 139, 132, 79, 29, 216, 232, 178, 74, 24, 141, 201, 181, 152,
   4, 7, 159, 134, 212, 226, 245, 164, 239, 47, 66, 27, 40, 197, 81, 78, 219, 228, 241, 121, 23, 120, 230, 76, 252,
   199, 184, 45, 203, 161, 89, 16, 21, 119, 5, 209, 196, 68, 130, 195, 176, 225, 233, 128, 22, 248, 179, 249, 61,
   108, 138, 145, 31, 49, 107, 56, 172, 224, 210, 6, 160, 189, 104, 200, 44, 175, 133, 77, 62, 106, 92, 186, 227, 14,
   38, 247, 37, 17, 222, 36, 75, 129, 185, 251, 240, 54, 151, 2, 98, 149, 0, 63, 218, 60, 198, 19, 59, 90, 246, 234,
   67, 51, 109, 95, 236, 35, 34, 114, 111]

/-- A look-up in `MottlePermutation256`. -/
def perm (i : Nat) : Nat := permutation.getD i 0

/-- The function `tex` (light/ltface.cc:1619-1625); its arguments are not negative. -/
def tex (x y z : Nat) : Nat := perm ((perm ((perm (x % 256) + y) % 256) + z) % 256)

/-- `mix` of two `uint8_t` (include/common/mathlib.hh:115-119): as the result is a `uint8_t` too, the fraction is cut off. -/
def mix (a b : Nat) (frac : ℚ) : Nat := ⌊(a : ℚ) * (1 - frac) + b * frac⌋.toNat

/-- The interpolation between eight samples (light/ltface.cc:1628-1638), from the cell (x, y, z). -/
def cell (x y z : Nat) (fx fy fz : ℚ) : Nat :=
  mix (mix (mix (tex x y z) (tex (x + 1) y z) fx) (mix (tex x (y + 1) z) (tex (x + 1) (y + 1) z) fx) fy)
    (mix (mix (tex x y (z + 1)) (tex (x + 1) y (z + 1)) fx) (mix (tex x (y + 1) (z + 1)) (tex (x + 1) (y + 1) (z + 1)) fx) fy) fz

/-- The cell a coordinate is in (light/ltface.cc:1594-1600, 1610-1612): undefined if it is no `int`, or
the least one, which cannot be negated (1555). -/
def coord (p : ℚ) : Outcome (Nat × ℚ) :=
  let t := p * (1 / 16)
  if -2147483648 < ⌊t⌋ ∧ ⌊t⌋ ≤ 2147483647 then .ok ((modNeg ⌊t⌋ 256).toNat, t - ⌊t⌋) else .ub

/-- `Mottle` (light/ltface.cc:1589-1642), with its assertions in a debug build. -/
def mottle (debug : Bool) (px py pz : ℚ) : Outcome ℚ :=
  coord px >>= fun x => coord py >>= fun y => coord pz >>= fun z =>
    if debug ∧ ¬ (x.1 < 256 ∧ y.1 < 256 ∧ z.1 < 256) then .error
    else .ok ((cell x.1 y.1 z.1 x.2 y.2 z.2 : ℚ) / 255 * 48)

end Verif.Mottle
