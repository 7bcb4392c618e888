import Verif.Cmdlib.Model
import Mathlib.Data.Prod.Lex
import Mathlib.Data.List.Lex
import Mathlib.Order.Lex

/-! Specifications for the helpers of common/cmdlib.cc. -/

namespace Verif.Cmdlib.Spec

open Verif Verif.Cmdlib

/-! ### CRC-16/CCITT: dividing by x^16 + x^12 + x^5 + 1, bit by bit -/

/-- Shifting one message bit into the register: the bit that leaves, combined with the message bit, decides
whether the polynomial (0x1021, its x^16 being the leaving bit) is subtracted. -/
def shiftIn (reg : BitVec 16) (bit : Bool) : BitVec 16 :=
  if reg.msb ^^ bit then (reg <<< 1) ^^^ 0x1021 else reg <<< 1

/-- The bits of a byte, most significant first. -/
def bits (b : BitVec 8) : List Bool := (List.range 8).map fun i => b.getMsbD i

/-- CRC-16/CCITT with initial value 0xffff, over all bits of a message. -/
def crc (msg : List (BitVec 8)) : BitVec 16 := (msg.flatMap bits).foldl shiftIn 0xffff

/-! ### Ignoring case -/

/-- The upper case letter `c` and its lower case letter are the same letter; other bytes are only themselves. -/
def SameLetter (a b : UInt8) : Prop :=
  a = b ∨ (65 ≤ a ∧ a ≤ 90 ∧ b = a + 32) ∨ (65 ≤ b ∧ b ≤ 90 ∧ a = b + 32)

/-- Equal ignoring case: equally long, and the same letters at the same places. -/
def SameText (a b : Str) : Prop := List.Forall₂ SameLetter a b

/-! ### Replacing -/

/-- `pat` occurs in `s` at position `k`. -/
def OccursAt (pat s : Str) (k : Nat) : Prop := ∃ p q, s = p ++ pat ++ q ∧ p.length = k

/-- Splitting `s` at the leftmost non-overlapping occurrences of `pat`. -/
inductive Split (pat : Str) : Str → List Str → Prop where
  | last {s : Str} : (∀ k, ¬ OccursAt pat s k) → Split pat s [s]
  | at {p q : Str} {parts : List Str} : (∀ k, k < p.length → ¬ OccursAt pat (p ++ pat ++ q) k) →
      Split pat q parts → Split pat (p ++ pat ++ q) (p :: parts)

/-- Joining parts with `sep` between them. -/
def join (sep : Str) : List Str → Str
  | [] => []
  | [p] => p
  | p :: q :: parts => p ++ sep ++ join sep (q :: parts)

/-! ### Natural ordering -/

/-- The value of a digit string. -/
def value : Str → Nat
  | [] => 0
  | d :: ds => (d.toNat - 48) * 10 ^ ds.length + value ds

/-- The code of a character, as a signed byte; ignoring case, that of the lower case letter. -/
def charCode (cs : Bool) (c : UInt8) : ℤ :=
  let b := if cs = false ∧ 65 ≤ c ∧ c ≤ 90 then c.toNat + 32 else c.toNat
  if b < 128 then b else b - 256

/-- What a string is ordered by: its runs of digits as numbers, its other characters as characters, and numbers
come before characters. -/
def key (cs : Bool) (s : Str) : List (ℕ ×ₗ ℤ) :=
  match s with
  | [] => []
  | c :: s =>
    if _h : isDigit c = true then
      toLex (0, (value ((c :: s).takeWhile isDigit) : ℤ)) :: key cs (afterNumber (c :: s))
    else toLex (1, charCode cs c) :: key cs s
  termination_by s.length
  decreasing_by
    all_goals first
      | exact afterNumber_lt _h
      | simp

/-- No number in `s` has a superfluous leading zero: a `0` before a digit has a digit before it. -/
def NoPadding (s : Str) : Prop :=
  ∀ p d q, s = p ++ 48 :: d :: q → isDigit d = true → ∃ p' c, p = p' ++ [c] ∧ isDigit c = true

end Verif.Cmdlib.Spec
