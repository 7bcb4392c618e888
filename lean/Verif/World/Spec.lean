import Verif.World.Model

/-!
What the size of the world has to do with the brushes, without reference to how it is found.
-/

namespace Verif.World.Spec

open Geom

variable {K : Type} [Field K] [LinearOrder K]

/-- The point is behind all planes. -/
def In (fs : List (Plane K)) (q : Vec K) : Prop := ∀ f ∈ fs, f.distTo q ≤ 0

/-- The brush ends in all directions. -/
def Bounded (fs : List (Plane K)) : Prop := ∃ r, ∀ q, In fs q → dot q q ≤ r

/-- The coordinates are at most `w`. -/
def Within (w : K) (q : Vec K) : Prop := |q.x| ≤ w ∧ |q.y| ≤ w ∧ |q.z| ≤ w

/-- The point moved by the option `scale`. -/
def scaled (c : K) (q : Vec K) : Vec K := ⟨q.x * c, q.y * c, q.z * c⟩

/-- All bodies of the loop have ended. -/
def Ended (s : St K) : Prop := ∀ p ∈ s.pcs, p = Pc.done

/-- The greatest of the numbers. -/
def IsMax (es : List (WithBot K)) (m : WithBot K) : Prop := (∀ e ∈ es, e ≤ m) ∧ (m = ⊥ ∨ m ∈ es)

end Verif.World.Spec
