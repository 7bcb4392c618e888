import Verif.Parser.Model

/-!
Specification vocabulary for the tokenizer. 10 is `\n`, 34 is `"`, 47 is `/`, 59 is `;`.
-/

namespace Verif.Parser

/-- Blanks and comments: what the tokenizer skips. Bytes up to 32 and from 128 on are blank. -/
inductive Junk : List UInt8 → Prop
  | nil : Junk []
  | blank {b : UInt8} {j : List UInt8} : b ≤ 32 ∨ 128 ≤ b → b ≠ 0 → Junk j → Junk (b :: j)
  | comment {c j : List UInt8} : (∃ t, c = 47 :: 47 :: t ∨ c = 59 :: t) → 10 ∉ c → 0 ∉ c → Junk j →
      Junk (c ++ 10 :: j)

/-- What a successful call consumes. -/
def Took (fl : Flags) (rest : List UInt8) (line : Nat) (s : State) : Prop :=
  ∃ junk, Junk junk ∧ s.line = line + junk.count 10 ∧
    ((fl.comment = true ∧ s.wasQuoted = false ∧ rest = junk ++ s.token ++ s.rest ∧
        (∃ t, s.token = 47 :: 47 :: t ∨ s.token = 59 :: t) ∧ 10 ∉ s.token ∧ 0 ∉ s.token ∧
        (s.rest.head? = some 0 ∨ s.rest.head? = some 10)) ∨
     (fl.comment = false ∧ s.wasQuoted = true ∧ rest = junk ++ 34 :: s.token ++ 34 :: s.rest ∧
        0 ∉ s.token) ∨
     (fl.comment = false ∧ s.wasQuoted = false ∧ rest = junk ++ s.token ++ s.rest ∧ s.token ≠ [] ∧
        (∀ b ∈ s.token, 32 < b ∧ b < 128) ∧ ∃ b r, s.rest = b :: r ∧ (b ≤ 32 ∨ 128 ≤ b)))

/-- What an unsuccessful call skips. -/
def Skipped (tail : Nat) (fl : Flags) (rest : List UInt8) (line : Nat) (s : State) : Prop :=
  s.token = [] ∧ s.wasQuoted = false ∧
  ∃ junk c, Junk junk ∧ s.line = line + junk.count 10 ∧ rest = junk ++ c ++ s.rest ∧ 10 ∉ c ∧ 0 ∉ c ∧
    (c = [] ∨ ∃ t, c = 47 :: 47 :: t ∨ c = 59 :: t) ∧
    (s.rest.length ≤ tail ∨ s.rest.head? = some 0 ∨ fl.optional = true ∨ fl.comment = true)

end Verif.Parser
