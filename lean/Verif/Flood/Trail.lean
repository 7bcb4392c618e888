import Verif.Geom.Model

/-!
Model of the points file of a leak (qbsp/outside.cc:258-304).

Simplification: `double` is replaced by an ordered field; `norm` stands for `qv::normalizeInPlace` (the direction and the
length); the file is the list of its points.
-/

namespace Verif.Flood

open Geom

variable {K : Type} [Field K] [LinearOrder K]

/-- `point + vector * s`. -/
def along (p dir : Vec K) (s : K) : Vec K := ⟨p.x + dir.x * s, p.y + dir.y * s, p.z + dir.z * s⟩

/-- The vector from one point to another. -/
def vecSub (q p : Vec K) : Vec K := ⟨q.x - p.x, q.y - p.y, q.z - p.z⟩

/-- The loop of `WriteLeakTrail` (qbsp/outside.cc:264-268): the points written. -/
def trailLoop (step : K) (dir : Vec K) : Nat → Vec K → K → Option (List (Vec K))
  | fuel, p, dist =>
    if dist > step then
      match fuel with
      | 0 => none
      | fuel + 1 => (trailLoop step dir fuel (along p dir step) (dist - step)).map (p :: ·)
    else some []

/-- `WriteLeakTrail` (qbsp/outside.cc:258-273); `leakdist` is the value of -leakdist. -/
def leakTrail (norm : Vec K → Vec K × K) (leakdist : Int) (fuel : Nat) (p q : Vec K) : Option (List (Vec K)) :=
  if leakdist ≠ 0 then
    let n := norm (vecSub q p)
    trailLoop (leakdist : K) n.1 fuel p n.2
  else some [p, q]

/-- The loop of `WriteLeakLine` (qbsp/outside.cc:292-301); `centers` are the centers of the portals of the line. -/
def leakPoints (norm : Vec K → Vec K × K) (leakdist : Int) (fuel : Nat) : Vec K → List (Vec K) → Option (List (Vec K))
  | _, [] => some []
  | p, c :: cs =>
    match leakTrail norm leakdist fuel p c with
    | none => none
    | some a => (leakPoints norm leakdist fuel c cs).map (a ++ ·)

end Verif.Flood
