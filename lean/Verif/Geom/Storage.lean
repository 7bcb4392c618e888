import Verif.Common.Outcome

/-!
Model of `winding_storage_hybrid_t` (include/common/polylib.hh:282-576): points are kept in an array of `N` points, the
others in a vector.

A point that was never stored is `none`; it is also what `vector::resize` appends. `reserve` has no effect.
-/

namespace Verif.Geom.Storage

open Verif

/-- `winding_storage_hybrid_t` (include/common/polylib.hh:292-296). -/
structure Store (α : Type) where
  array : List (Option α)
  vector : List (Option α)
  count : Nat
  deriving DecidableEq

variable {α : Type}

/-- `std::vector::resize`. -/
def vresize (v : List (Option α)) (n : Nat) : List (Option α) := v.take n ++ List.replicate (n - v.length) none

/-- The constructors (include/common/polylib.hh:392-404). -/
def new (N n : Nat) : Store α := ⟨List.replicate N none, if n > N then vresize [] (n - N) else [], n⟩

/-- `memcpy` of the first `n` points. -/
def blit (dst src : List (Option α)) (n : Nat) : Outcome (List (Option α)) :=
  if n ≤ dst.length ∧ n ≤ src.length then .ok (src.take n ++ dst.drop n) else .ub

/-- The constructor from a range (include/common/polylib.hh:409-419). -/
def ofRange (N : Nat) (l : List α) : Outcome (Store α) := do
  let s := new N l.length
  let a ← blit s.array (l.map some) (min l.length N)
  let v ← (if l.length > N then blit s.vector ((l.drop N).map some) (l.length - N) else .ok s.vector)
  pure ⟨a, v, s.count⟩

/-- The copy constructor (include/common/polylib.hh:423-433). -/
def copyCtor (N : Nat) (src : Store α) : Outcome (Store α) := do
  let s := new N src.count
  let a ← blit s.array src.array (min src.count N)
  let v ← (if src.count > N then blit s.vector src.vector (src.count - N) else .ok s.vector)
  pure ⟨a, v, s.count⟩

/-- The move constructor (include/common/polylib.hh:436-450): the new and the old container. -/
def moveCtor (N : Nat) (src : Store α) : Outcome (Store α × Store α) := do
  let s := new N 0
  let a ← blit s.array src.array (min src.count N)
  if src.count > N then pure (⟨a, src.vector, src.count⟩, { src with vector := [], count := 0 })
  else pure (⟨a, s.vector, src.count⟩, { src with count := 0 })

/-- The copy assignment (include/common/polylib.hh:453-468). -/
def copyAssign (N : Nat) (s src : Store α) : Outcome (Store α) := do
  let a ← blit s.array src.array (min src.count N)
  let v ← (if src.count > N then blit (vresize s.vector (src.count - N)) src.vector (src.count - N) else .ok s.vector)
  pure ⟨a, v, src.count⟩

/-- The move assignment (include/common/polylib.hh:471-486): both containers. -/
def moveAssign (N : Nat) (s src : Store α) : Outcome (Store α × Store α) := do
  let a ← blit s.array src.array (min src.count N)
  if src.count > N then pure (⟨a, src.vector, src.count⟩, { src with vector := [], count := 0 })
  else pure (⟨a, s.vector, src.count⟩, { src with count := 0 })

/-- Reading with `operator[]` or `at` (include/common/polylib.hh:492-538). -/
def read (N : Nat) (s : Store α) (i : Nat) : Outcome (Option α) :=
  if i ≥ N then Outcome.readAt s.vector (i - N) else Outcome.readAt s.array i

/-- Writing with `operator[]` or `at` (include/common/polylib.hh:492-538). -/
def write (N : Nat) (s : Store α) (i : Nat) (p : α) : Outcome (Store α) :=
  if i ≥ N then do
    let v ← Outcome.writeAt s.vector (i - N) (some p)
    pure { s with vector := v }
  else do
    let a ← Outcome.writeAt s.array i (some p)
    pure { s with array := a }

/-- `emplace_back` (include/common/polylib.hh:552-561). -/
def push (N : Nat) (s : Store α) (p : α) : Outcome (Store α) :=
  let count := s.count + 1
  if count > N then .ok { s with vector := s.vector ++ [some p], count := count }
  else do
    let a ← Outcome.writeAt s.array (count - 1) (some p)
    pure { s with array := a, count := count }

/-- `resize` (include/common/polylib.hh:563-571). -/
def resize (N : Nat) (s : Store α) (n : Nat) : Store α :=
  if n > N then { s with vector := vresize s.vector (n - N), count := n } else { s with count := n }

/-- `clear` (include/common/polylib.hh:575). -/
def clear (s : Store α) : Store α := { s with count := 0 }

/-- The operations of a history over named containers. -/
inductive Op (α : Type) where
  | new (i n : Nat)
  | ofRange (i : Nat) (l : List α)
  | push (i : Nat) (p : α)
  | write (i k : Nat) (p : α)
  | resize (i n : Nat)
  | clear (i : Nat)
  | copyCtor (i j : Nat)
  | moveCtor (i j : Nat)
  | copyAssign (i j : Nat)
  | moveAssign (i j : Nat)

/-- The containers. -/
abbrev World (α : Type) := Nat → Store α

/-- Replaces a container. -/
def World.set (w : World α) (i : Nat) (s : Store α) : World α := fun k => if k = i then s else w k

/-- An operation. Copying a container to itself is undefined (`memcpy` of overlapping memory). -/
def step (N : Nat) (w : World α) : Op α → Outcome (World α)
  | .new i n => .ok (w.set i (Storage.new N n))
  | .ofRange i l => do
    let s ← Storage.ofRange N l
    pure (w.set i s)
  | .push i p => do
    let s ← Storage.push N (w i) p
    pure (w.set i s)
  | .write i k p => do
    let s ← Storage.write N (w i) k p
    pure (w.set i s)
  | .resize i n => .ok (w.set i (Storage.resize N (w i) n))
  | .clear i => .ok (w.set i (Storage.clear (w i)))
  | .copyCtor i j =>
    if i = j then .ub
    else do
      let s ← Storage.copyCtor N (w j)
      pure (w.set i s)
  | .moveCtor i j =>
    if i = j then .ub
    else do
      let s ← Storage.moveCtor N (w j)
      pure ((w.set i s.1).set j s.2)
  | .copyAssign i j =>
    if i = j then .ub
    else do
      let s ← Storage.copyAssign N (w i) (w j)
      pure (w.set i s)
  | .moveAssign i j =>
    if i = j then .ub
    else do
      let s ← Storage.moveAssign N (w i) (w j)
      pure ((w.set i s.1).set j s.2)

/-- A history. -/
def run (N : Nat) : World α → List (Op α) → Outcome (World α)
  | w, [] => .ok w
  | w, o :: os => do
    let w' ← step N w o
    run N w' os

/-- All containers are empty at the start. -/
def init (N : Nat) : World α := fun _ => new N 0

end Verif.Geom.Storage
