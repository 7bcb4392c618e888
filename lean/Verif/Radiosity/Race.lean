import Mathlib.Logic.Function.Basic

/-!
Model of a pass of bounced light over all faces by many threads (light/bounce.cc:224-233) and its use
(light/light.cc:800-806).

`any_to_bounce = MakeBounceLightsThread(…) || any_to_bounce` is a call, then a load of the atomic unless the call returned
true, then a store. Each face is a task; any number of them may be in progress at a time.

Simplification: a call of `MakeBounceLightsThread` only reads and writes what belongs to its face, and is one step.
-/

namespace Verif.Radiosity

/-- Where a task is. -/
inductive Pc where
  | start
  | load
  | store (v : Bool)
  | done
  deriving DecidableEq

/-- All faces, the tasks, and `any_to_bounce`. -/
structure Pass (S : Type) where
  faces : Nat → S
  pc : Nat → Pc
  any : Bool

variable {S : Type}

/-- One step of the task for a face (light/bounce.cc:230). `work`: `MakeBounceLightsThread`. -/
def step (work : Nat → S → S × Bool) (p : Pass S) (i : Nat) : Pass S :=
  match p.pc i with
  | .start =>
    let r := work i (p.faces i)
    { p with faces := Function.update p.faces i r.1, pc := Function.update p.pc i (if r.2 then .store true else .load) }
  | .load => { p with pc := Function.update p.pc i (.store p.any) }
  | .store v => { p with pc := Function.update p.pc i .done, any := v }
  | .done => p

/-- A schedule: the task that takes the next step, each time. -/
def run (work : Nat → S → S × Bool) (faces : Nat → S) (sched : List Nat) : Pass S :=
  sched.foldl (step work) ⟨faces, fun _ => .start, false⟩

/-- The loop over the passes (light/light.cc:800-819): how many passes are lit, given what each returns. -/
def passes : Nat → List Bool → Nat
  | 0, _ => 0
  | _, [] => 0
  | n + 1, r :: rs => if r then passes n rs + 1 else 0

end Verif.Radiosity
