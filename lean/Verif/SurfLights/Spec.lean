import Verif.SurfLights.Model

/-!
What is said about surface lights on faces, apart from how they are made.
-/

namespace Verif.SurfLights

open Verif.Geom

variable {K : Type} [Field K] [LinearOrder K] [FloorRing K]

/-- A point in the convex hull of a polygon: it is in every half-space that contains the corners. -/
def Inside (vs : List (Vec K)) (p : Vec K) : Prop := ∀ n d, (∀ v ∈ vs, dot n v ≤ d) → dot n p ≤ d

/-- The polygon is in a plane. -/
def Planar (n : Vec K) (d : K) (vs : List (Vec K)) : Prop := ∀ v ∈ vs, dot n v = d

/-- The cross product. -/
def cross (a b : Vec K) : Vec K := ⟨a.y * b.z - a.z * b.y, a.z * b.x - a.x * b.z, a.x * b.y - a.y * b.x⟩

/-- The sum over the pairs of neighbours in a list. -/
def along {α : Type} (E : α → α → K) : List α → K
  | a :: b :: l => E a b + along E (b :: l)
  | _ => 0

/-- Twice the area of a polygon as seen along `n`, times the length of `n`. -/
def area2 (n : Vec K) : List (Vec K) → K
  | [] => 0
  | v :: vs => along (fun a b => dot n (cross a b)) (v :: vs ++ [v])

/-- The polygon is less than `w` wide along every axis. -/
def Within (w : K) (vs : List (Vec K)) : Prop := ∀ a ∈ vs, ∀ b ∈ vs, a.x - b.x < w ∧ a.y - b.y < w ∧ a.z - b.z < w

end Verif.SurfLights

namespace Verif.SurfLights

open Verif.Geom

variable {K : Type} [Field K] [LinearOrder K] [FloorRing K]

/-- A template is meant for a face: it is for this kind of surface light, the groups agree unless one has none, and it
names the texture. -/
def MeantFor (same : String → String → Bool) (dflt type : Int) (f : Face K) (t : Template K) : Prop :=
  t.radiosity.getD dflt = type ∧ (f.group = 0 ∨ t.group = 0 ∨ t.group = f.group) ∧ same f.tex t.surface = true

/-- The light of a template on a piece of a face with the middle `c`: lifted off the face by `_surface_offset`, or by 2
without it, and moved with its model. -/
def lightAt (k : Nat) (f : Face K) (model : Vec K) (t : Template K) (c : Vec K) : Made K :=
  let o := if t.offset = 0 then 2 else t.offset
  { face := k
    origin := ⟨c.x + f.normal.x * o + model.x, c.y + f.normal.y * o + model.y, c.z + f.normal.z * o + model.z⟩
    spot := if t.spot = 0 then none else some f.normal
    light := t.light }

/-- Water, slime or lava in Quake II, anything but empty in other games. -/
def Wet (q2 : Bool) (l : Leaf) : Prop :=
  if q2 then (BitVec.ofInt 32 l.contents).getLsbD 3 ∨ (BitVec.ofInt 32 l.contents).getLsbD 4 ∨
    (BitVec.ofInt 32 l.contents).getLsbD 5 else l.contents ≠ -1

/-- A face is seen from a leaf that lists it, other than the wet side of a translucent face. -/
def Seen (q2 : Bool) (leafs : List Leaf) (k : Nat) (f : Face K) : Prop :=
  ∃ l ∈ leafs, k ∈ l.faces ∧ ¬ (Wet q2 l ∧ f.translucent = true)

end Verif.SurfLights
