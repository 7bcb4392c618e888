import Verif.SurfLights.Model

/-!
Model of dicing a winding into patches (include/common/polylib.hh:703-721 and 1132-1169).

Simplifications: `float` and `double` are replaced by an ordered field `K` in which numbers can be rounded down, that is,
arithmetic is exact. The recursion is given fuel; `none` if it runs out.
-/

namespace Verif.Radiosity

open Verif.Geom Verif.SurfLights

variable {K : Type} [Field K] [LinearOrder K] [FloorRing K]

/-- The first axis along which the winding reaches over a multiple of the size (include/common/polylib.hh:1144-1146). -/
def diceAxis (s : K) (v : Vec K) (vs : List (Vec K)) : Option (Fin 3) :=
  [0, 1, 2].find? fun i => decide (⌊(lo i v vs + 1) / s⌋ < ⌊(hi i v vs - 1) / s⌋)

/-- The plane of the cut (include/common/polylib.hh:1157-1159). -/
def dicePlane (s : K) (i : Fin 3) (v : Vec K) (vs : List (Vec K)) : Plane K :=
  { normal := match i with
      | 0 => ⟨1, 0, 0⟩
      | 1 => ⟨0, 1, 0⟩
      | 2 => ⟨0, 0, 1⟩
    dist := s * (1 + ⌊(lo i v vs + 1) / s⌋) }

/-- `dice` (include/common/polylib.hh:1135-1169): the windings that are handed to `save_fn`. `DEFAULT_ON_EPSILON` is 0.1
(include/common/mathlib.hh:57). -/
def dice (s : K) : Nat → List (Vec K) → Option (List (List (Vec K)))
  | 0, _ => none
  | _ + 1, [] => some []
  | fuel + 1, v :: vs =>
    match diceAxis s v vs with
    | none => some [v :: vs]
    | some i =>
      let c := clip (dicePlane s i v vs) (1 / 10) false (v :: vs)
      match dice s fuel (c.1.getD []), dice s fuel (c.2.getD []) with
      | some a, some b => some (a ++ b)
      | _, _ => none

/-- `center` (include/common/polylib.hh:703-711). -/
def center (vs : List (Vec K)) : Vec K :=
  let sum := vs.foldl (fun c p => (⟨c.x + p.x, c.y + p.y, c.z + p.z⟩ : Vec K)) ⟨0, 0, 0⟩
  ⟨sum.x * (1 / vs.length), sum.y * (1 / vs.length), sum.z * (1 / vs.length)⟩

end Verif.Radiosity
