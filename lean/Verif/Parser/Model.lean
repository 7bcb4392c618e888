import Verif.Common.Outcome

/-!
Model of the tokenizer `parser_t` (common/parser.cc, include/common/parser.hh).

Memory: a parser walks forward over one block of memory, so its position is represented by the bytes
of that block from `pos` on (`rest`). Reading a byte behind the block is undefined behaviour.
`tail` is the number of bytes of the block at or behind `end`: 0 for the contents of a file
(`fs::data`, a plain byte vector), 1 for a C string or `std::string` (the terminating NUL).
`char` is signed (x86), so bytes from 0x80 on compare `<= 32`.
-/

namespace Verif.Parser

/-- The parse flags (include/common/parser.hh:29-36) without `PARSE_PEEK`. -/
structure Flags where
  sameline : Bool := false
  comment : Bool := false
  optional : Bool := false
  deriving Repr, DecidableEq

/-- `*pos <= 32` on a signed `char` (common/parser.cc:101,195): bytes from 128 on are negative. -/
def isBlank (b : UInt8) : Bool := b ≤ 32 || 128 ≤ b

/-- `'\n'`. -/
abbrev NL : UInt8 := 10
/-- `'\r'`. -/
abbrev CR : UInt8 := 13
/-- `'"'`. -/
abbrev QUOTE : UInt8 := 34
/-- `'/'`. -/
abbrev SLASH : UInt8 := 47
/-- `';'`. -/
abbrev SEMI : UInt8 := 59
/-- `'\\'`. -/
abbrev BACKSLASH : UInt8 := 92

/-- Where skipping blanks ends: at a token, or with `return false`. -/
inductive Skip where
  | found (rest : List UInt8) (line : Nat)
  | stop (rest : List UInt8) (line : Nat)
  deriving Repr, DecidableEq

/-- `parser_t::at_end` (common/parser.cc:209-212). -/
def atEnd (tail : Nat) (rest : List UInt8) : Bool := rest.length ≤ tail

/-- The loop at `skipspace:` (common/parser.cc:99-117). -/
def skipSpace (tail : Nat) (fl : Flags) : List UInt8 → Nat → Outcome Skip
  | [], line =>
    if fl.optional then .ok (.stop [] line) else if fl.sameline then .error else .ok (.stop [] line)
  | b :: bs, line =>
    if atEnd tail (b :: bs) || isBlank b then
      if atEnd tail (b :: bs) || b = 0 then
        if fl.optional then .ok (.stop (b :: bs) line)
        else if fl.sameline then .error
        else .ok (.stop (b :: bs) line)
      else if b = NL then
        if fl.optional then .ok (.stop (b :: bs) line)
        else if fl.sameline then .error
        else skipSpace tail fl bs (line + 1)
      else skipSpace tail fl bs line
    else .ok (.found (b :: bs) line)

/-- The test for a comment (common/parser.cc:120). -/
def isComment : List UInt8 → Outcome Bool
  | [] => .ub
  | b :: bs =>
    if b = SLASH then
      match bs with
      | [] => .ub
      | c :: _ => .ok (c == SLASH)
    else .ok (b == SEMI)

/-- Copying a comment as a token (common/parser.cc:122-124). -/
def copyComment : List UInt8 → Outcome (List UInt8 × List UInt8)
  | [] => .ub
  | b :: bs =>
    if b = 0 ∨ b = NL then .ok ([], b :: bs)
    else do
      let r ← copyComment bs
      pure (b :: r.1, r.2)

/-- Skipping a comment, `while (*pos++ != '\n') { if (!*pos) return false; }` (common/parser.cc:131-137).
The flag says whether the newline was found. -/
def skipLine : List UInt8 → Outcome (Bool × List UInt8)
  | [] => .ub
  | b :: bs =>
    if b = NL then .ok (true, bs)
    else
      match bs with
      | [] => .ub
      | c :: cs => if c = 0 then .ok (false, c :: cs) else skipLine (c :: cs)

/-- The bytes that form a two-byte escape (common/parser.cc:158-163). -/
def isEscape (c : UInt8) : Bool :=
  c = 110 || c = 39 || c = 114 || c = 116 || c = BACKSLASH || c = 98

/-- Copying a quoted token, from behind the opening quote (common/parser.cc:149-193). The cases that
only push the backslash (`\x`, `\0`-`\9`, unknown escapes) are one case; warnings are not modelled. -/
def quoted : List UInt8 → Outcome (List UInt8 × List UInt8)
  | [] => .ub
  | b :: bs =>
    if b = QUOTE then .ok ([], bs)
    else if b = 0 then .error
    else if b = BACKSLASH then
      match bs with
      | [] => .ub
      | c :: cs =>
        if isEscape c then do
          let r ← quoted cs
          pure (b :: c :: r.1, r.2)
        else if c = QUOTE then
          match cs with
          | [] => .ub
          | d :: ds =>
            if d = CR ∨ d = NL then do
              let r ← quoted (c :: d :: ds)
              pure (b :: r.1, r.2)
            else do
              let r ← quoted (d :: ds)
              pure (b :: c :: r.1, r.2)
        else do
          let r ← quoted (c :: cs)
          pure (b :: r.1, r.2)
    else do
      let r ← quoted bs
      pure (b :: r.1, r.2)
  termination_by l => l.length

/-- Copying an unquoted token (common/parser.cc:195-197). -/
def unquoted : List UInt8 → Outcome (List UInt8 × List UInt8)
  | [] => .ub
  | b :: bs =>
    if isBlank b then .ok ([], b :: bs)
    else do
      let r ← unquoted bs
      pure (b :: r.1, r.2)

/-- The observable state of a parser: position, line number, last token, whether it was quoted. -/
structure State where
  rest : List UInt8
  line : Nat
  token : List UInt8 := []
  wasQuoted : Bool := false
  deriving Repr, DecidableEq

/-- Copying the token (common/parser.cc:144-198). -/
def copyToken (rest : List UInt8) (line : Nat) : Outcome (Bool × State) :=
  match rest with
  | [] => .ub
  | b :: bs =>
    if b = QUOTE then do
      let r ← quoted bs
      pure (true, ⟨r.2, line, r.1, true⟩)
    else do
      let r ← unquoted (b :: bs)
      pure (true, ⟨r.2, line, r.1, false⟩)

theorem skipSpace_le {tail : Nat} {fl : Flags} {l : List UInt8} {line : Nat} {r : List UInt8} {n : Nat}
    (h : skipSpace tail fl l line = .ok (.found r n)) : r.length ≤ l.length := by
  induction l generalizing line with
  | nil => unfold skipSpace at h; repeat' split at h
           all_goals simp at h
  | cons b bs ih =>
    unfold skipSpace at h
    repeat' split at h
    all_goals first
      | (have := ih h; simp only [List.length_cons]; omega)
      | (simp at h; done)
      | (simp at h; simp [← h.1])

theorem skipLine_lt {l : List UInt8} {b : Bool} {r : List UInt8}
    (h : skipLine l = .ok (b, r)) : r.length < l.length := by
  induction l with
  | nil => simp [skipLine] at h
  | cons c cs ih =>
    unfold skipLine at h
    repeat' split at h
    all_goals first
      | (have := ih h; simp only [List.length_cons] at *; omega)
      | (simp at h; done)
      | (simp at h; simp [← h.2])

/-- `parser_t::parse_token` without `PARSE_PEEK` from `skipspace:` on (common/parser.cc:99-202). -/
def scan (tail : Nat) (fl : Flags) (rest : List UInt8) (line : Nat) : Outcome (Bool × State) :=
  match _h : skipSpace tail fl rest line with
  | .error => .error
  | .ub => .ub
  | .ok (.stop r n) => .ok (false, ⟨r, n, [], false⟩)
  | .ok (.found r n) =>
    match isComment r with
    | .error => .error
    | .ub => .ub
    | .ok true =>
      if fl.comment then do
        let c ← copyComment r
        pure (true, ⟨c.2, n, c.1, false⟩)
      else if fl.optional then .ok (false, ⟨r, n, [], false⟩)
      else if fl.sameline then .error
      else
        match _h2 : skipLine r with
        | .error => .error
        | .ub => .ub
        | .ok (false, r2) => .ok (false, ⟨r2, n, [], false⟩)
        | .ok (true, r2) => scan tail fl r2 (n + 1)
    | .ok false =>
      if fl.comment then .ok (false, ⟨r, n, [], false⟩)
      else copyToken r n
  termination_by rest.length
  decreasing_by
    have := skipSpace_le _h
    have := skipLine_lt _h2
    omega

/-- `parser_t::parse_token` (common/parser.cc:85-202); `peek` is `PARSE_PEEK`, which saves and restores
position and location only. -/
def parseToken (tail : Nat) (fl : Flags) (peek : Bool) (p : State) : Outcome (Bool × State) :=
  if peek then do
    let r ← scan tail fl p.rest p.line
    pure (r.1, { r.2 with rest := p.rest, line := p.line })
  else scan tail fl p.rest p.line

/-- A parser over the contents of a file (common/parser.cc:63-68,75-78). -/
def ofFile (data : List UInt8) : State := { rest := data, line := 1 }

/-- A parser over a `std::string` or a C string (common/parser.cc:70-73,80-83), whose bytes are
followed by a NUL. `&view.front()` of an empty view is undefined. -/
def ofString (text : List UInt8) : State := { rest := text ++ [0], line := 1 }

/-- A parser with its stack of saved states (common/parser.cc:214-223). -/
structure Stacked where
  cur : State
  saved : List (List UInt8 × Nat) := []
  deriving Repr, DecidableEq

/-- Calls on a parser. -/
inductive Call where
  | read (fl : Flags) (peek : Bool)
  | push
  | pop
  deriving Repr, DecidableEq

/-- One call. Popping an empty stack is undefined (`std::vector::back`). -/
def Stacked.call (tail : Nat) (s : Stacked) : Call → Outcome Stacked
  | .read fl peek => do
    let r ← parseToken tail fl peek s.cur
    pure { s with cur := r.2 }
  | .push => .ok { s with saved := (s.cur.rest, s.cur.line) :: s.saved }
  | .pop =>
    match s.saved with
    | [] => .ub
    | (r, n) :: saved => .ok { cur := { s.cur with rest := r, line := n }, saved := saved }

/-- A history of calls. -/
def Stacked.calls (tail : Nat) : Stacked → List Call → Outcome Stacked
  | s, [] => .ok s
  | s, c :: cs => do
    let s' ← s.call tail c
    s'.calls tail cs

end Verif.Parser
