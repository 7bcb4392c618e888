import Verif.Common.Outcome
import Verif.Parser.Model
import Verif.EntData.Dict

/-!
Model of the option system (common/settings.cc, include/common/settings.hh): single options with a value
and the source it came from, option containers looked up by name, assignment from map keys and from the
command line.

Simplified: the help texts, groups, log messages and `setting_validator` are not modelled; a `setting_func`
is the list of assignments its callback makes (as `-nosubdivide` does, qbsp/qbsp.cc:459); redirects lead to
plain options (as all redirects in the tools do). Parsing a floating-point text (`std::stod` and rounding)
and the label comparison of `natural_case_insensitive_less` are parameters (`Env`).
-/

namespace Verif.Settings

open Verif

abbrev Str := List UInt8

/-- `settings::source` (include/common/settings.hh:60-66). -/
inductive Source where
  | default
  | gameTarget
  | map
  | commandLine
  deriving Repr, DecidableEq

/-- The value of the enumerator (include/common/settings.hh:60-66). -/
def Source.rank : Source → Nat
  | .default => 0
  | .gameTarget => 1
  | .map => 2
  | .commandLine => 3

/-- A floating-point value; rounding plays no role here. -/
inductive Num where
  | nan
  | ninf
  | fin (q : Rat)
  | inf
  deriving Repr, DecidableEq

/-- `<` of IEEE numbers: false as soon as one side is NaN. -/
def Num.lt : Num → Num → Bool
  | .nan, _ => false
  | _, .nan => false
  | .ninf, .ninf => false
  | .ninf, _ => true
  | .fin _, .ninf => false
  | .fin a, .fin b => decide (a < b)
  | .fin _, .inf => true
  | .inf, _ => false

/-- The value of an option. -/
inductive Val where
  | bool (b : Bool)
  | int (i : Int)
  | num (x : Num)
  | str (s : Str)
  | set (l : List Str)
  | vec (x y z : Num)
  deriving Repr, DecidableEq

/-- `std::clamp(f, lo, hi)` with a given `<`: `f < lo ? lo : hi < f ? hi : f`. -/
def clampBy {α : Type} (lt : α → α → Bool) (f lo hi : α) : α :=
  if lt f lo then lo else if lt hi f then hi else f

/-- The kinds of options (include/common/settings.hh:144-480). `int` is `setting_int32`, `scalar` is
`setting_scalar`, both with minimum, maximum and the value used when the argument may be left out;
`string` stands for `setting_string` and `setting_path`; `vec3` carries the transformation applied on
assignment (`setting_vec3`, `setting_color`); `mangle` is `setting_mangle`. -/
inductive Kind where
  | bool
  | invertible
  | int (lo hi : Int) (omitted : Option Int)
  | scalar (lo hi : Num) (omitted : Option Num)
  | enum (labels : List (Str × Int))
  | string
  | set
  | vec3 (tr : Num → Num → Num → Val)
  | mangle (tr : Num → Num → Num → Val)
  | redirect (targets : List Nat)
  | func (assigns : List (Nat × Val))

/-- The mutable part of an option (include/common/settings.hh:96,164-165). -/
structure Cell where
  source : Source
  value : Val
  dflt : Val
  deriving Repr, DecidableEq

/-- A new option (include/common/settings.hh:168-174): the default value, from `DEFAULT`. -/
def Cell.new (v : Val) : Cell := ⟨.default, v, v⟩

/-- `setting_base::change_source` (common/settings.cc:72-79): the new source if the change is accepted. -/
def changeSource (old new : Source) : Option Source :=
  if old.rank ≤ new.rank then some new else none

/-- `setting_value::set_value` (include/common/settings.hh:180-185). -/
def Cell.setValue (c : Cell) (v : Val) (s : Source) : Cell :=
  match changeSource c.source s with
  | some s' => { c with source := s', value := v }
  | none => c

/-- `setting_set::add_value` (common/settings.cc:332-337). The unordered set is a duplicate-free list. -/
def Cell.addValue (c : Cell) (t : Str) (s : Source) : Cell :=
  match changeSource c.source s with
  | some s' =>
    match c.value with
    | .set l => { c with source := s', value := .set (if t ∈ l then l else l ++ [t]) }
    | _ => { c with source := s' }
  | none => c

/-- The virtual `set_value`: the range clamp of numbers (include/common/settings.hh:285-295), the
transformation of vectors (common/settings.cc:398-401), `add_value` of sets, plain otherwise. An assignment
of a value of another type does not compile in C++; here it changes nothing. -/
def Cell.assign (k : Kind) (c : Cell) (v : Val) (s : Source) : Cell :=
  match k, v with
  | .bool, .bool b => c.setValue (.bool b) s
  | .invertible, .bool b => c.setValue (.bool b) s
  | .int lo hi _, .int i => c.setValue (.int (clampBy (fun a b => decide (a < b)) i lo hi)) s
  | .scalar lo hi _, .num x => c.setValue (.num (clampBy Num.lt x lo hi)) s
  | .vec3 tr, .vec x y z => c.setValue (tr x y z) s
  | .mangle tr, .vec x y z => c.setValue (tr x y z) s
  | .enum _, .int i => c.setValue (.int i) s
  | .string, .str t => c.setValue (.str t) s
  | .set, .str t => c.addValue t s
  | _, _ => c

/-- `reset` (include/common/settings.hh:197-201, common/settings.cc:359-363; a set's default is empty). -/
def Cell.reset (c : Cell) : Cell := { c with source := .default, value := c.dflt }

/-- `copy_from` between options of one type (include/common/settings.hh:187-195). -/
def Cell.copyFrom (c o : Cell) : Cell := { c with source := o.source, value := o.value }

/-! ### Number texts -/

/-- `isspace` in the C locale, as used by `strtoull`. -/
def isSpace (b : UInt8) : Bool := b = 32 || (9 ≤ b && b ≤ 13)

/-- A decimal digit. -/
def isDigit (b : UInt8) : Bool := 48 ≤ b && b ≤ 57

/-- The leading digits of a text, as a number. -/
def digits (acc : Nat) : Str → Nat
  | [] => acc
  | b :: bs => if isDigit b then digits (acc * 10 + (b.toNat - 48)) bs else acc

/-- The common start of `strtoull` and `strtol` in base 10: blanks, a sign, and digits that may be followed
by anything. Gives the sign and the magnitude, or nothing if there is no digit. -/
def scanNumber (s : Str) : Option (Bool × Nat) :=
  match s.dropWhile isSpace with
  | [] => none
  | 45 :: b :: bs => if isDigit b then some (true, digits 0 (b :: bs)) else none
  | 43 :: b :: bs => if isDigit b then some (false, digits 0 (b :: bs)) else none
  | b :: bs => if isDigit b then some (false, digits 0 (b :: bs)) else none

/-- `std::stoull`: a negative text is negated modulo 2^64; nothing stands for an exception. -/
def stoull (s : Str) : Option Nat :=
  match scanNumber s with
  | none => none
  | some (neg, n) =>
    if 2 ^ 64 ≤ n then none
    else if neg then some ((2 ^ 64 - n) % 2 ^ 64) else some n

/-- `static_cast<int32_t>` of an unsigned 64-bit number. -/
def castInt32 (n : Nat) : Int := Int.bmod (n : Int) (2 ^ 32)

/-- `std::stoi`; nothing stands for an exception. -/
def stoi (s : Str) : Option Int :=
  match scanNumber s with
  | none => none
  | some (neg, n) =>
    let i : Int := if neg then -(n : Int) else n
    if -2 ^ 31 ≤ i ∧ i < 2 ^ 31 then some i else none

/-! ### Reading an option's argument -/

/-- A source of tokens, `parser_base_t` (include/common/parser.hh): one call of `parse_token` gives the
token, or nothing, and the state after it. `parse_token(PARSE_PEEK)` gives the same token and keeps the
state. -/
class Tokens (σ : Type) where
  next : σ → Outcome (Option Str × σ)

/-- `token_parser_t` (common/parser.cc:227-276) by the arguments it has not handed out yet. -/
instance : Tokens (List Str) where
  next
    | [] => .ok (none, [])
    | t :: ts => .ok (some t, ts)

/-- `parser_t` over a `std::string` (common/parser.cc:70-73,85-202; modelled in `Verif.Parser`). -/
instance : Tokens Parser.State where
  next p := do
    let r ← Parser.parseToken 1 {} false p
    pure (if r.1 then some r.2.token else none, r.2)

/-- What the model takes from outside: `std::stod` followed by the conversion to `float` (nothing stands
for an exception) and whether two labels are equivalent under `natural_case_insensitive_less`. -/
structure Env where
  stod : Str → Option Num
  same : Str → Str → Bool

/-- "1", "0", "-1" (common/settings.cc:121). -/
def isBoolWord (t : Str) : Bool := t = [49] || t = [48] || t = [45, 49]

/-- `setting_bool::parseInternal` (common/settings.cc:115-137): the value and the state after it. -/
def parseBool {σ : Type} [Tokens σ] (st : σ) (truth : Bool) : Outcome (Bool × σ) := do
  let p ← Tokens.next st
  match p.1 with
  | some t =>
    if isBoolWord t then
      match stoi t with
      | some i => pure (if i ≠ 0 ∧ i ≠ -1 then truth else !truth, p.2)
      | none => .error
    else pure (truth, st)
  | none => pure (truth, st)

/-- `setting_name.compare(0, 2, "no") == 0` (common/settings.cc:181). -/
def startsWithNo (name : Str) : Bool := name.take 2 = [110, 111]

/-- The end of `setting_numeric::parse` when there is no number (include/common/settings.hh:319-324). -/
def parseOmitted {σ : Type} (k : Kind) (c : Cell) (src : Source) (omitted : Option Val) (st : σ) :
    Outcome (Bool × Cell × σ) :=
  match omitted with
  | some v => .ok (true, c.assign k v src, st)
  | none => .ok (false, c, st)

/-- `setting_numeric::parse` (include/common/settings.hh:299-325), for a text conversion `conv`. -/
def parseNumeric {σ : Type} [Tokens σ] (k : Kind) (conv : Str → Option Val) (omitted : Option Val)
    (c : Cell) (src : Source) (st : σ) : Outcome (Bool × Cell × σ) := do
  let p ← Tokens.next st
  match p.1 with
  | some t =>
    match conv t with
    | some v => pure (true, c.assign k v src, p.2)
    | none => parseOmitted k c src omitted st
  | none => parseOmitted k c src omitted st

/-- The lookup of a label (include/common/settings.hh:383). -/
def findLabel (env : Env) (t : Str) : List (Str × Int) → Option Int
  | [] => none
  | (l, v) :: rest => if env.same l t then some v else findLabel env t rest

/-- `setting_enum::parse` (include/common/settings.hh:376-399). Enumerators are integers. -/
def parseEnum {σ : Type} [Tokens σ] (env : Env) (k : Kind) (labels : List (Str × Int))
    (c : Cell) (src : Source) (st : σ) : Outcome (Bool × Cell × σ) := do
  let p ← Tokens.next st
  match p.1 with
  | none => pure (false, c, p.2)
  | some t =>
    match findLabel env t labels with
    | some v => pure (true, c.assign k (.int v) src, p.2)
    | none =>
      match stoi t with
      | some i => pure (true, c.assign k (.int i) src, p.2)
      | none => pure (false, c, p.2)

/-- `setting_string::parse`, `setting_path::parse`, `setting_set::parse` (common/settings.cc:269-277,
297-306,339-347). A set peeks first, which keeps the state when there is no token. -/
def parseString {σ : Type} [Tokens σ] (k : Kind) (c : Cell) (src : Source) (st : σ) :
    Outcome (Bool × Cell × σ) := do
  let p ← Tokens.next st
  match p.1 with
  | none => pure (false, c, p.2)
  | some t => pure (true, c.assign k (.str t) src, p.2)

/-- One coordinate of `setting_vec3::parse` (common/settings.cc:407-417). -/
def parseCoord {σ : Type} [Tokens σ] (env : Env) (st : σ) : Outcome (Option Num × σ) := do
  let p ← Tokens.next st
  match p.1 with
  | none => pure (none, p.2)
  | some t => pure (env.stod t, p.2)

/-- `setting_vec3::parse` (common/settings.cc:403-422). -/
def parseVec3 {σ : Type} [Tokens σ] (env : Env) (k : Kind) (c : Cell) (src : Source) (st : σ) :
    Outcome (Bool × Cell × σ) := do
  let x ← parseCoord env st
  match x.1 with
  | none => pure (false, c, x.2)
  | some vx => do
    let y ← parseCoord env x.2
    match y.1 with
    | none => pure (false, c, y.2)
    | some vy => do
      let z ← parseCoord env y.2
      match z.1 with
      | none => pure (false, c, z.2)
      | some vz => pure (true, c.assign k (.vec vx vy vz) src, z.2)

/-- The loop of `setting_mangle::parse` (common/settings.cc:445-457): up to `n` more numbers. -/
def mangleNums {σ : Type} [Tokens σ] (env : Env) : Nat → σ → Outcome (List Num × σ)
  | 0, st => .ok ([], st)
  | n + 1, st => do
    let p ← Tokens.next st
    match p.1 with
    | none => pure ([], st)
    | some t =>
      match env.stod t with
      | none => pure ([], st)
      | some x => do
        let r ← mangleNums env n p.2
        pure (x :: r.1, r.2)

/-- `setting_mangle::parse` (common/settings.cc:441-462). -/
def parseMangle {σ : Type} [Tokens σ] (env : Env) (k : Kind) (c : Cell) (src : Source) (st : σ) :
    Outcome (Bool × Cell × σ) := do
  let r ← mangleNums env 3 st
  let z : Num := .fin 0
  pure (true, c.assign k (.vec (r.1.getD 0 z) (r.1.getD 1 z) (r.1.getD 2 z)) src, r.2)

/-- `parse` of an option that is not a redirect and not a function. -/
def parsePlain {σ : Type} [Tokens σ] (env : Env) (k : Kind) (name : Str) (c : Cell) (src : Source)
    (st : σ) : Outcome (Bool × Cell × σ) :=
  match k with
  | .bool => do
    -- common/settings.cc:145-148
    let r ← parseBool st true
    pure (true, c.assign .bool (.bool r.1) src, r.2)
  | .invertible => do
    -- common/settings.cc:179-182
    let r ← parseBool st (if startsWithNo name then false else true)
    pure (true, c.assign .invertible (.bool r.1) src, r.2)
  | .int lo hi om =>
    parseNumeric (.int lo hi om) (fun t => (stoull t).map fun n => .int (castInt32 n)) (om.map .int) c src st
  | .scalar lo hi om =>
    parseNumeric (.scalar lo hi om) (fun t => (env.stod t).map .num) (om.map .num) c src st
  | .enum labels => parseEnum env (.enum labels) labels c src st
  | .string => parseString .string c src st
  | .set => parseString .set c src st
  | .vec3 tr => parseVec3 env (.vec3 tr) c src st
  | .mangle tr => parseMangle env (.mangle tr) c src st
  | .redirect _ => .ok (true, c, st)
  | .func _ => .ok (true, c, st)

/-! ### Containers -/

/-- An option with its names (the ones added by `setting_invertible_bool` included). -/
structure Setting where
  names : List Str
  kind : Kind
  cell : Cell

/-- `setting_container` by its options; `_settingsmap` maps every name to the option that has it. -/
abbrev Container := List Setting

/-- `extendNames` (common/settings.cc:162-171). -/
def extendNames (names : List Str) : List Str := names ++ names.map fun n => [110, 111] ++ n

/-- The names an option is registered under (common/settings.cc:173-177). -/
def registeredNames (k : Kind) (names : List Str) : List Str :=
  match k with
  | .invertible => extendNames names
  | _ => names

/-- Giving option `i` a new value part. -/
def setCell (cs : Container) (i : Nat) (c : Cell) : Container :=
  cs.modify i fun s => { s with cell := c }

/-- The lookup in `_settingsmap` (common/settings.cc:508-512). Names are registered once
(common/settings.cc:487-490). -/
def lookup (cs : Container) (name : Str) : Option Nat :=
  cs.findIdx? fun s => name ∈ s.names

/-- `setting_container::find_setting` (common/settings.cc:501-513). -/
def findSetting (cs : Container) : Str → Option Nat
  | [] => lookup cs []
  | b :: bs => if b = 95 then findSetting cs bs else lookup cs (b :: bs)

/-- The loop of `setting_redirect::parse` (common/settings.cc:200-220). All but the last target give the
parser state back. -/
def parseRedirect {σ : Type} [Tokens σ] (env : Env) (name : Str) (src : Source) :
    Container → List Nat → σ → Outcome (Bool × Container × σ)
  | cs, [], st => .ok (true, cs, st)
  | cs, i :: is, st =>
    match cs[i]? with
    | none => .ub
    | some s => do
      let r ← parsePlain env s.kind name s.cell src st
      if r.1 then
        parseRedirect env name src (setCell cs i r.2.1) is (if is.isEmpty then r.2.2 else st)
      else pure (false, setCell cs i r.2.1, r.2.2)

/-- The assignments of a `setting_func` callback. -/
def runFunc (src : Source) : Container → List (Nat × Val) → Outcome Container
  | cs, [] => .ok cs
  | cs, (i, v) :: rest =>
    match cs[i]? with
    | none => .ub
    | some s => runFunc src (setCell cs i (s.cell.assign s.kind v src)) rest

/-- The virtual `parse` of option `i` of a container. -/
def parseAt {σ : Type} [Tokens σ] (env : Env) (cs : Container) (i : Nat) (name : Str) (src : Source)
    (st : σ) : Outcome (Bool × Container × σ) :=
  match cs[i]? with
  | none => .ub
  | some s =>
    match s.kind with
    | .redirect ts => parseRedirect env name src cs ts st
    | .func as => do
      -- common/settings.cc:97-101
      let cs' ← runFunc src cs as
      pure (true, cs', st)
    | k => do
      let r ← parsePlain env k name s.cell src st
      pure (r.1, setCell cs i r.2.1, r.2.2)

/-- `setting_error` (include/common/settings.hh:512-517). -/
inductive Result where
  | none
  | missing
  | invalid
  deriving Repr, DecidableEq

/-- `setting_container::set_setting` (common/settings.cc:515-528). Building a parser over an empty text
calls `string_view::front` on an empty view (common/parser.cc:70-73). -/
def setSetting (env : Env) (cs : Container) (name value : Str) (src : Source) :
    Outcome (Result × Container) :=
  match findSetting cs name with
  | none => if src = .commandLine then .error else .ok (.missing, cs)
  | some i =>
    if value = [] then .ub
    else do
      let r ← parseAt env cs i name src (⟨value ++ [0], 1, [], false⟩ : Parser.State)
      pure (if r.1 then .none else .invalid, r.2.1)

/-- `setting_container::set_settings` (common/settings.cc:530-535): every key of an entity. -/
def setSettings (env : Env) (src : Source) : Container → EntData.Dict → Outcome Container
  | cs, [] => .ok cs
  | cs, (k, v) :: rest => do
    let r ← setSetting env cs k v src
    setSettings env src r.2 rest

/-- `setting_container::reset` (common/settings.cc:242-247). -/
def resetAll (cs : Container) : Container := cs.map fun s => { s with cell := s.cell.reset }

theorem mangleNums_suffix {env : Env} {n : Nat} {st : List Str} {r : List Num × List Str}
    (h : mangleNums env n st = .ok r) : r.2 <:+ st := by
  induction n generalizing st r with
  | zero => simp only [mangleNums, Outcome.ok.injEq] at h; subst h; exact List.suffix_refl _
  | succ n ih =>
    cases st with
    | nil => simp [mangleNums, Tokens.next] at h; subst h; simp
    | cons t ts =>
      simp only [mangleNums, Tokens.next, Outcome.ok_bind] at h
      split at h
      · simp at h; subst h; simp
      · rw [Outcome.bind_eq_ok] at h
        obtain ⟨a, ha, hb⟩ := h
        simp at hb; subst hb
        exact (ih ha).trans (List.suffix_cons _ _)

theorem parseBool_suffix {st : List Str} {b : Bool} {r : Bool × List Str}
    (h : parseBool st b = .ok r) : r.2 <:+ st := by
  cases st with
  | nil => simp [parseBool, Tokens.next] at h; subst h; simp
  | cons t ts =>
    simp only [parseBool, Tokens.next, Outcome.ok_bind] at h
    repeat' split at h
    all_goals first
      | (simp at h; done)
      | (simp at h; subst h; simp)

theorem parseOmitted_state {k : Kind} {c : Cell} {src : Source} {om : Option Val} {st : List Str}
    {r : Bool × Cell × List Str} (h : parseOmitted k c src om st = .ok r) : r.2.2 <:+ st := by
  unfold parseOmitted at h
  split at h <;> (simp at h; subst h; exact List.suffix_refl _)

theorem parseNumeric_suffix {k : Kind} {conv : Str → Option Val} {om : Option Val} {c : Cell}
    {src : Source} {st : List Str} {r : Bool × Cell × List Str}
    (h : parseNumeric k conv om c src st = .ok r) : r.2.2 <:+ st := by
  unfold parseNumeric at h
  cases st with
  | nil => simp only [Tokens.next, Outcome.ok_bind] at h; exact parseOmitted_state h
  | cons t ts =>
    simp only [Tokens.next, Outcome.ok_bind] at h
    split at h
    · simp at h; subst h; simp
    · exact parseOmitted_state h

theorem parsePlain_suffix {env : Env} {k : Kind} {name : Str} {c : Cell} {src : Source} {st : List Str}
    {r : Bool × Cell × List Str} (h : parsePlain env k name c src st = .ok r) : r.2.2 <:+ st := by
  unfold parsePlain at h
  split at h
  · rw [Outcome.bind_eq_ok] at h
    obtain ⟨a, ha, hb⟩ := h
    simp at hb; subst hb; exact parseBool_suffix ha
  · rw [Outcome.bind_eq_ok] at h
    obtain ⟨a, ha, hb⟩ := h
    simp at hb; subst hb; exact parseBool_suffix ha
  · exact parseNumeric_suffix h
  · exact parseNumeric_suffix h
  · unfold parseEnum at h
    cases st with
    | nil => simp [Tokens.next] at h; subst h; simp
    | cons t ts =>
      simp only [Tokens.next, Outcome.ok_bind] at h
      repeat' split at h
      all_goals (simp at h; subst h; simp)
  · unfold parseString at h
    cases st with
    | nil => simp [Tokens.next] at h; subst h; simp
    | cons t ts => simp [Tokens.next] at h; subst h; simp
  · unfold parseString at h
    cases st with
    | nil => simp [Tokens.next] at h; subst h; simp
    | cons t ts => simp [Tokens.next] at h; subst h; simp
  · have hc : ∀ (s : List Str) (x : Option Num × List Str), parseCoord env s = .ok x → x.2 <:+ s := by
      intro s x hx
      unfold parseCoord at hx
      cases s with
      | nil => simp [Tokens.next] at hx; subst hx; simp
      | cons t ts => simp [Tokens.next] at hx; subst hx; simp
    unfold parseVec3 at h
    rw [Outcome.bind_eq_ok] at h
    obtain ⟨x, hx, h⟩ := h
    have h1 := hc _ _ hx
    split at h
    · simp at h; subst h; exact h1
    · rw [Outcome.bind_eq_ok] at h
      obtain ⟨y, hy, h⟩ := h
      have h2 := hc _ _ hy
      split at h
      · simp at h; subst h; exact h2.trans h1
      · rw [Outcome.bind_eq_ok] at h
        obtain ⟨z, hz, h⟩ := h
        have h3 := hc _ _ hz
        split at h <;> (simp at h; subst h; exact h3.trans (h2.trans h1))
  · unfold parseMangle at h
    rw [Outcome.bind_eq_ok] at h
    obtain ⟨a, ha, hb⟩ := h
    simp at hb; subst hb; exact mangleNums_suffix ha
  · simp at h; subst h; simp
  · simp at h; subst h; simp

theorem parseRedirect_suffix {env : Env} {name : Str} {src : Source} {is : List Nat} {cs : Container}
    {st : List Str} {r : Bool × Container × List Str}
    (h : parseRedirect env name src cs is st = .ok r) : r.2.2 <:+ st := by
  induction is generalizing cs st r with
  | nil => simp [parseRedirect] at h; subst h; simp
  | cons i is ih =>
    unfold parseRedirect at h
    split at h
    · simp at h
    · rw [Outcome.bind_eq_ok] at h
      obtain ⟨a, ha, hb⟩ := h
      have h1 := parsePlain_suffix ha
      split at hb
      · have h2 := ih hb
        split at h2
        · exact h2.trans h1
        · exact h2
      · simp at hb; subst hb; exact h1

theorem parseAt_suffix {env : Env} {cs : Container} {i : Nat} {name : Str} {src : Source} {st : List Str}
    {r : Bool × Container × List Str} (h : parseAt env cs i name src st = .ok r) : r.2.2 <:+ st := by
  unfold parseAt at h
  split at h
  · simp at h
  · split at h
    · exact parseRedirect_suffix h
    · rw [Outcome.bind_eq_ok] at h
      obtain ⟨a, ha, hb⟩ := h
      simp at hb; subst hb; simp
    · rw [Outcome.bind_eq_ok] at h
      obtain ⟨a, ha, hb⟩ := h
      simp at hb; subst hb; exact parsePlain_suffix ha

/-- "help", "h", "?", "rst" (common/settings.cc:682-687): a text is printed and the run ends. -/
def isHelp (name : Str) : Bool :=
  name = [104, 101, 108, 112] || name = [104] || name = [63] || name = [114, 115, 116]

/-- `setting_container::parse` over the command line (common/settings.cc:654-717): the container after it
and the remaining arguments. An argument of hyphens only makes the code call `front` on an empty string
(common/settings.cc:674). -/
def parseArgs (env : Env) (cs : Container) (args : List Str) : Outcome (Container × List Str) :=
  match args with
  | [] => .ok (cs, [])
  | t :: ts =>
    if t.head? ≠ some 45 then .ok (cs, t :: ts)
    else
      let name := t.dropWhile (· = 45)
      if name = [] then .ub
      else if isHelp name then .error
      else
        match findSetting cs name with
        | none => .error
        | some i =>
          match _h : parseAt env cs i name .commandLine ts with
          | .error => .error
          | .ub => .ub
          | .ok (false, _, _) => .error
          | .ok (true, cs', ts') => parseArgs env cs' ts'
  termination_by args.length
  decreasing_by
    have := (parseAt_suffix _h).length_le
    simp only [List.length_cons] at *
    omega

end Verif.Settings
