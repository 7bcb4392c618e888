import Verif.Settings.Model

/-!
Model of the light styles of switchable lights and shadows (light/entities.cc:160-200, 872-961) and of the styles of
surface lights (light/surflight.cc:186-195, 276-280).
-/

namespace Verif.Styles

open Verif
open Verif.EntData (Str Dict get set)

/-- A string literal. -/
def lit (s : String) : Str := s.toUTF8.toList

/-- `lightstyleForTargetname` (light/entities.cc:41): names and their styles, in order of allocation. -/
abbrev Table := List (Str × Int)

/-- The loop of `LightStyleForTargetname` (light/entities.cc:171-175). -/
def lookup (t : Table) (name : Str) : Option Int :=
  (t.find? fun pr => decide (pr.1 = name ∧ 0 < name.length)).map Prod.snd

/-- `LightStyleForTargetname` (light/entities.cc:168-190), with the values of `compilerstyle_start` and
`compilerstyle_max`. -/
def styleFor (start max : Int) (t : Table) (name : Str) : Outcome (Int × Table) :=
  match lookup t name with
  | some s => .ok (s, t)
  | none =>
    let newStylenum := start + t.length
    if newStylenum ≥ max then .error
    else .ok (newStylenum, t ++ [(name, newStylenum)])

/-- `TargetnameForLightStyle` (light/entities.cc:192-200). -/
def nameFor (t : Table) (style : Int) : Str :=
  match t.find? fun pr => decide (pr.2 = style) with
  | some pr => pr.1
  | none => []

/-- `ParseEscapeSequences` (light/entities.cc:872-894); `bold` is the local variable. -/
def escape (bold : Bool) : Str → Str
  | [] => []
  | [c] => [if bold then c ||| 128 else c]
  | c :: d :: s =>
    if c = 92 ∧ d = 98 then escape (!bold) s
    else (if bold then c ||| 128 else c) :: escape bold (d :: s)

/-- The decimal digits of a number. -/
def digitsOf (n : Nat) : Str :=
  if n < 10 then [48 + n.toUInt8] else digitsOf (n / 10) ++ [48 + (n % 10).toUInt8]
termination_by n

/-- `std::to_string(int)`. -/
def decimal (i : Int) : Str := if i < 0 then 45 :: digitsOf i.natAbs else digitsOf i.natAbs

/-- `entdict_t::get_int` (common/entdata.cc:62-71). `atoi` of a number that is no `int` is undefined. -/
def getInt (d : Dict) (key : Str) : Outcome Int :=
  match Settings.scanNumber (get d key) with
  | none => .ok 0
  | some (neg, n) =>
    let i : Int := if neg then -(n : Int) else n
    if -2 ^ 31 ≤ i ∧ i < 2 ^ 31 then .ok i else .ub

/-- The change of `lightmap_scale` to `_lightmap_scale` (light/entities.cc:926-934). `lmscale` is a reference into the
entity, and is used after `remove` has erased the pair it belongs to, which is undefined; in practice the new key gets
the value of the next one. -/
def fixScale (d : Dict) : Outcome Dict :=
  if (get d (lit "lightmap_scale")).isEmpty then .ok d else .ub

/-- The test `classname.find("light") == 0` (light/entities.cc:939). -/
def isLight (d : Dict) : Bool := (lit "light").isPrefixOf (get d (lit "classname"))

/-- Styles of switchable lights (light/entities.cc:938-945). -/
def lightStyle (start max : Int) (t : Table) (d : Dict) : Outcome (Table × Dict) :=
  if isLight d then
    if (get d (lit "targetname")).isEmpty then .ok (t, d)
    else do
      let (style, t) ← styleFor start max t (get d (lit "targetname"))
      pure (t, set d (lit "style") (decimal style))
  else .ok (t, d)

/-- Styles of switchable shadows (light/entities.cc:948-954). -/
def shadowStyle (start max : Int) (t : Table) (d : Dict) : Outcome (Table × Dict) := do
  let n ← getInt d (lit "_switchableshadow")
  if n = 1 then
    let (style, t) ← styleFor start max t (get d (lit "targetname"))
    pure (t, set d (lit "switchshadstyle") (decimal style))
  else pure (t, d)

/-- One round of the first pass over the entities (light/entities.cc:924-960). -/
def prepare (start max : Int) (t : Table) (d : Dict) : Outcome (Table × Dict) := do
  let d ← fixScale d
  let (t, d) ← lightStyle start max t d
  let (t, d) ← shadowStyle start max t d
  pure (t, d.map fun kv => (kv.1, escape false kv.2))

/-- The first pass over the entities (light/entities.cc:924-960). -/
def firstPass (start max : Int) (t : Table) : List Dict → Outcome (Table × List Dict)
  | [] => .ok (t, [])
  | d :: ds => do
    let (t, d) ← prepare start max t d
    let (t, ds) ← firstPass start max t ds
    pure (t, d :: ds)

/-! ### Surface lights -/

/-- A call of `LightStyleForTargetname` by a thread, between its first and its last access to
`lightstyleForTargetname`. -/
inductive Pc where
  /-- outside of the function -/
  | idle
  /-- in the loop over the table, or done with it without a result -/
  | inside (name : Str)
  deriving DecidableEq, Repr

/-- A worker of `parallel_for` (light/surflight.cc:279): where it is, the names it still asks for, and its results. -/
structure Worker where
  pc : Pc
  todo : List Str
  done : List (Str × Int)
  deriving DecidableEq, Repr

/-- The shared table and the workers. -/
structure Machine where
  table : Table
  workers : List Worker
  deriving DecidableEq, Repr

/-- One step of worker `i`: it enters the function, or finishes its call. There is no lock around
light/surflight.cc:189-190: a call that appends while another thread is inside of the function is a data race. -/
def stepWorker (start max : Int) (m : Machine) (i : Nat) : Outcome Machine :=
  match m.workers[i]? with
  | none => .ok m
  | some w =>
    match w.pc with
    | .idle =>
      match w.todo with
      | [] => .ok m
      | name :: rest => .ok { m with workers := m.workers.set i ⟨.inside name, rest, w.done⟩ }
    | .inside name => do
      let (style, t) ← styleFor start max m.table name
      if t ≠ m.table ∧ (m.workers.eraseIdx i).any (fun v => decide (v.pc ≠ .idle)) = true then .ub
      else pure { table := t, workers := m.workers.set i ⟨.idle, w.todo, w.done ++ [(name, style)]⟩ }

/-- Steps of the workers in the order of a schedule. -/
def runWorkers (start max : Int) (m : Machine) : List Nat → Outcome Machine
  | [] => .ok m
  | i :: is => do
    let m ← stepWorker start max m i
    runWorkers start max m is

end Verif.Styles
