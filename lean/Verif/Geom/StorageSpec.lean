import Verif.Geom.Storage

/-! Specification of a growable array, and of the histories for which the container is one. -/

namespace Verif.Geom.Storage.Spec

variable {α : Type}

/-- An array: the value last written at each index, `none` when nothing was written there. `stale`: the array held more
than `N` points when it was cleared, shrunk or overwritten to at most `N` points. -/
structure Arr (α : Type) where
  vals : List (Option α)
  stale : Bool

/-- The points of an array of size `n` after it is resized. -/
def resized (l : List (Option α)) (n : Nat) : List (Option α) := l.take n ++ List.replicate (n - l.length) none

/-- An array is given other contents in place. -/
def Arr.become (N : Nat) (a : Arr α) (vals : List (Option α)) : Arr α :=
  ⟨vals, decide (vals.length ≤ N) && (a.stale || decide (a.vals.length > N))⟩

abbrev World (α : Type) := Nat → Arr α

def World.set (w : World α) (i : Nat) (a : Arr α) : World α := fun k => if k = i then a else w k

/-- An operation; `none`: writing outside of the array or copying an array to itself. -/
def step (N : Nat) (w : World α) : Op α → Option (World α)
  | .new i n => some (w.set i ⟨List.replicate n none, false⟩)
  | .ofRange i l => some (w.set i ⟨l.map some, false⟩)
  | .push i p => some (w.set i ⟨(w i).vals ++ [some p], (w i).stale⟩)
  | .write i k p => if k < (w i).vals.length then some (w.set i ⟨(w i).vals.set k (some p), (w i).stale⟩) else none
  | .resize i n => some (w.set i ((w i).become N (resized (w i).vals n)))
  | .clear i => some (w.set i ((w i).become N []))
  | .copyCtor i j => if i = j then none else some (w.set i ⟨(w j).vals, false⟩)
  | .copyAssign i j => if i = j then none else some (w.set i ((w i).become N (w j).vals))
  | .moveCtor i j =>
    if i = j then none
    else some ((w.set i ⟨(w j).vals, false⟩).set j ⟨[], decide ((w j).vals.length ≤ N) && (w j).stale⟩)
  | .moveAssign i j =>
    if i = j then none
    else some ((w.set i ((w i).become N (w j).vals)).set j ⟨[], decide ((w j).vals.length ≤ N) && (w j).stale⟩)

/-- No array is grown beyond `N` points by a push after it became stale. -/
def Fresh (N : Nat) (w : World α) : Op α → Prop
  | .push i _ => (w i).vals.length ≥ N → (w i).stale = false
  | _ => True

/-- A history of operations. -/
def run (N : Nat) : World α → List (Op α) → Option (World α)
  | w, [] => some w
  | w, o :: os => (step N w o).bind fun w' => run N w' os

/-- A history without pushes beyond `N` points onto stale arrays. -/
def FreshRun (N : Nat) : World α → List (Op α) → Prop
  | _, [] => True
  | w, o :: os => Fresh N w o ∧ ∀ w', step N w o = some w' → FreshRun N w' os

def init : World α := fun _ => ⟨[], false⟩

end Verif.Geom.Storage.Spec
