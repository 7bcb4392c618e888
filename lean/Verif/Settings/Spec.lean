import Verif.Settings.Model

/-!
Specification vocabulary for options.
-/

namespace Verif.Settings

/-- Priority of the sources: command line over map over game over default. -/
def priority : Source → Nat
  | .commandLine => 4
  | .map => 3
  | .gameTarget => 2
  | .default => 1

/-- `v` is the latest value from the highest-priority source in the history `h` (oldest first). -/
def Latest (h : List (Source × Val)) (v : Val) : Prop :=
  ∃ pre s post, h = pre ++ (s, v) :: post ∧ (∀ e ∈ pre, priority e.1 ≤ priority s) ∧
    (∀ e ∈ post, priority e.1 < priority s)

/-- Calls on one option. -/
inductive CellOp where
  | assign (s : Source) (v : Val)
  | reset

/-- One call on an option of kind `k`. -/
def CellOp.run (k : Kind) (c : Cell) : CellOp → Cell
  | .assign s v => c.assign k v s
  | .reset => c.reset

/-- What can happen to a container of options: a map key, all keys of an entity, a command line, an
assignment by the program, a reset. -/
inductive Op where
  | key (name value : Str) (src : Source)
  | entity (d : EntData.Dict) (src : Source)
  | args (l : List Str)
  | direct (i : Nat) (v : Val) (src : Source)
  | reset

/-- The source of the assignments of an event. -/
def Op.source : Op → Option Source
  | .key _ _ s => some s
  | .entity _ s => some s
  | .args _ => some .commandLine
  | .direct _ _ s => some s
  | .reset => none

/-- One event. -/
def Op.run (env : Env) (cs : Container) : Op → Outcome Container
  | .key n v s => do
    let r ← setSetting env cs n v s
    pure r.2
  | .entity d s => setSettings env s cs d
  | .args l => do
    let r ← parseArgs env cs l
    pure r.1
  | .direct i v s =>
    match cs[i]? with
    | none => .ub
    | some st => .ok (setCell cs i (st.cell.assign st.kind v s))
  | .reset => .ok (resetAll cs)

/-- A history of events. -/
def runOps (env : Env) : Container → List Op → Outcome Container
  | cs, [] => .ok cs
  | cs, o :: os => do
    let cs' ← o.run env cs
    runOps env cs' os

/-- The value of option `i`. -/
def valueOf (cs : Container) (i : Nat) : Option Val := (cs[i]?).map fun s => s.cell.value

/-- An integer option is inside its range. -/
def IntInRange (s : Setting) : Prop :=
  match s.kind with
  | .int lo hi _ => (∃ i, s.cell.value = .int i ∧ lo ≤ i ∧ i ≤ hi) ∧
      ∃ i, s.cell.dflt = .int i ∧ lo ≤ i ∧ i ≤ hi
  | _ => True

/-- A number that is not NaN lies between two bounds. -/
def Between (lo x hi : Num) : Prop := x ≠ .nan ∧ Num.lt x lo = false ∧ Num.lt hi x = false

/-- A scalar option is inside its range. -/
def ScalarInRange (s : Setting) : Prop :=
  match s.kind with
  | .scalar lo hi _ => (∃ x, s.cell.value = .num x ∧ Between lo x hi) ∧
      ∃ x, s.cell.dflt = .num x ∧ Between lo x hi
  | _ => True

/-- The value of a list of decimal digits, most significant first. -/
def decValue : List Nat → Nat
  | [] => 0
  | d :: ds => d * 10 ^ ds.length + decValue ds

/-- The text of a list of decimal digits. -/
def digitText (ds : List Nat) : Str := ds.map fun d => UInt8.ofNat (48 + d)

/-- `n` forced into `[lo, hi]`. -/
def clampInt (n lo hi : Int) : Int := max lo (min n hi)

/-- What the word behind a boolean option says: "0" and "-1" are off, anything else is on. -/
def saysOn (word : Str) : Bool := word ≠ [48] && word ≠ [45, 49]

/-- What a boolean option with the arguments `rest` behind it says. -/
def argsSayOn : List Str → Bool
  | [] => true
  | w :: _ => saysOn w

/-- The arguments left when a boolean option has taken its word: only "1", "0" and "-1" belong to it. -/
def afterBool : List Str → List Str
  | [] => []
  | w :: ws => if w = [49] ∨ w = [48] ∨ w = [45, 49] then ws else w :: ws

/-- A text that the tokenizer reads as one unquoted word. -/
def Word (w : Str) : Prop :=
  w ≠ [] ∧ (∀ b ∈ w, 32 < b ∧ b < 128) ∧ w.head? ≠ some 34 ∧ w.head? ≠ some 59 ∧ w.head? ≠ some 47

/-- Option `i` is in the container and is found under `name`. -/
def Found (cs : Container) (name : Str) (i : Nat) (s : Setting) : Prop :=
  findSetting cs name = some i ∧ cs[i]? = some s

end Verif.Settings
