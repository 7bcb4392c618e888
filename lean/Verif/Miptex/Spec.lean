import Verif.Miptex.Model

/-!
What C208 says, apart from the model.
-/

namespace Verif.Miptex.Spec

open Verif.Cmdlib (Str)

/-- A small letter for a capital one. -/
def lower (b : UInt8) : UInt8 := if 65 ≤ b ∧ b ≤ 90 then b + 32 else b

/-- A name without regard to case. -/
def fold (s : Str) : Str := s.map lower

/-- Two characters number frames of one sequence, the first the lower one: two digits, or two letters from A to J. -/
def Below (b c : UInt8) : Prop :=
  (48 ≤ b ∧ b < c ∧ c ≤ 57) ∨ (97 ≤ lower b ∧ lower b < lower c ∧ lower c ≤ 106)

/-- No texture is listed twice. -/
def Unique (tbl : List Str) : Prop := (tbl.map fold).Nodup

/-- All frames below each animated texture are in the list, if its name fits a texture of the game (15 characters). -/
def FramesBelow (tbl : List Str) : Prop :=
  ∀ c rest, 43 :: c :: rest ∈ tbl → rest.length ≤ 13 →
    ∀ b, Below b c → fold (43 :: b :: rest) ∈ tbl.map fold

/-- `m` is one of the frames below the texture `name`: another second character, of a name of at most 15 characters. (The
characters 1 to 9 count as digits.) -/
def FrameOf (name m : Str) : Prop :=
  ∃ c rest b, name.take 15 = 43 :: c :: rest ∧ m = 43 :: b :: rest ∧ (Below b c ∨ (48 ≤ b ∧ b < 48 + c ∧ c ≤ 9))

/-- The part of a path behind the last slash. -/
def IsBase (path n : Str) : Prop := 47 ∉ n ∧ (path = n ∨ ∃ dir, path = dir ++ 47 :: n)

/-- A character that numbers a frame. -/
def IsFrame (b : UInt8) : Prop := (48 ≤ b ∧ b ≤ 57) ∨ (97 ≤ b ∧ b ≤ 106)

end Verif.Miptex.Spec
