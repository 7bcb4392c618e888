import Verif.Common.Outcome

/-!
Model of helpers in common/cmdlib.cc: the CRC, case-insensitive comparison and hashing, replacing in strings
and the natural ordering of strings. Strings are byte lists. `tolower` is the one of the C locale; for bytes
from 0x80 on, where the C standard leaves `tolower` of a negative `char` undefined, it gives its argument back,
as glibc does.
-/

namespace Verif.Cmdlib

open Verif

abbrev Str := List UInt8

/-! ### CRC -/

/-- `CRC_INIT_VALUE` (common/cmdlib.cc:342). -/
def crcInit : BitVec 16 := 0xffff

/-- `crctable` (common/cmdlib.cc:344-362). -/
def crcTable : List (BitVec 16) := [
  0x0000, 0x1021, 0x2042, 0x3063, 0x4084, 0x50a5, 0x60c6, 0x70e7, 0x8108, 0x9129, 0xa14a,
  0xb16b, 0xc18c, 0xd1ad, 0xe1ce, 0xf1ef, 0x1231, 0x0210, 0x3273, 0x2252, 0x52b5, 0x4294,
  0x72f7, 0x62d6, 0x9339, 0x8318, 0xb37b, 0xa35a, 0xd3bd, 0xc39c, 0xf3ff, 0xe3de, 0x2462,
  0x3443, 0x0420, 0x1401, 0x64e6, 0x74c7, 0x44a4, 0x5485, 0xa56a, 0xb54b, 0x8528, 0x9509,
  0xe5ee, 0xf5cf, 0xc5ac, 0xd58d, 0x3653, 0x2672, 0x1611, 0x0630, 0x76d7, 0x66f6, 0x5695,
  0x46b4, 0xb75b, 0xa77a, 0x9719, 0x8738, 0xf7df, 0xe7fe, 0xd79d, 0xc7bc, 0x48c4, 0x58e5,
  0x6886, 0x78a7, 0x0840, 0x1861, 0x2802, 0x3823, 0xc9cc, 0xd9ed, 0xe98e, 0xf9af, 0x8948,
  0x9969, 0xa90a, 0xb92b, 0x5af5, 0x4ad4, 0x7ab7, 0x6a96, 0x1a71, 0x0a50, 0x3a33, 0x2a12,
  0xdbfd, 0xcbdc, 0xfbbf, 0xeb9e, 0x9b79, 0x8b58, 0xbb3b, 0xab1a, 0x6ca6, 0x7c87, 0x4ce4,
  0x5cc5, 0x2c22, 0x3c03, 0x0c60, 0x1c41, 0xedae, 0xfd8f, 0xcdec, 0xddcd, 0xad2a, 0xbd0b,
  0x8d68, 0x9d49, 0x7e97, 0x6eb6, 0x5ed5, 0x4ef4, 0x3e13, 0x2e32, 0x1e51, 0x0e70, 0xff9f,
  0xefbe, 0xdfdd, 0xcffc, 0xbf1b, 0xaf3a, 0x9f59, 0x8f78, 0x9188, 0x81a9, 0xb1ca, 0xa1eb,
  0xd10c, 0xc12d, 0xf14e, 0xe16f, 0x1080, 0x00a1, 0x30c2, 0x20e3, 0x5004, 0x4025, 0x7046,
  0x6067, 0x83b9, 0x9398, 0xa3fb, 0xb3da, 0xc33d, 0xd31c, 0xe37f, 0xf35e, 0x02b1, 0x1290,
  0x22f3, 0x32d2, 0x4235, 0x5214, 0x6277, 0x7256, 0xb5ea, 0xa5cb, 0x95a8, 0x8589, 0xf56e,
  0xe54f, 0xd52c, 0xc50d, 0x34e2, 0x24c3, 0x14a0, 0x0481, 0x7466, 0x6447, 0x5424, 0x4405,
  0xa7db, 0xb7fa, 0x8799, 0x97b8, 0xe75f, 0xf77e, 0xc71d, 0xd73c, 0x26d3, 0x36f2, 0x0691,
  0x16b0, 0x6657, 0x7676, 0x4615, 0x5634, 0xd94c, 0xc96d, 0xf90e, 0xe92f, 0x99c8, 0x89e9,
  0xb98a, 0xa9ab, 0x5844, 0x4865, 0x7806, 0x6827, 0x18c0, 0x08e1, 0x3882, 0x28a3, 0xcb7d,
  0xdb5c, 0xeb3f, 0xfb1e, 0x8bf9, 0x9bd8, 0xabbb, 0xbb9a, 0x4a75, 0x5a54, 0x6a37, 0x7a16,
  0x0af1, 0x1ad0, 0x2ab3, 0x3a92, 0xfd2e, 0xed0f, 0xdd6c, 0xcd4d, 0xbdaa, 0xad8b, 0x9de8,
  0x8dc9, 0x7c26, 0x6c07, 0x5c64, 0x4c45, 0x3ca2, 0x2c83, 0x1ce0, 0x0cc1, 0xef1f, 0xff3e,
  0xcf5d, 0xdf7c, 0xaf9b, 0xbfba, 0x8fd9, 0x9ff8, 0x6e17, 0x7e36, 0x4e55, 0x5e74, 0x2e93,
  0x3eb2, 0x0ed1, 0x1ef0]

/-- `CRC_ProcessByte` (common/cmdlib.cc:369-372). The index `(crcvalue >> 8) ^ data` is an `int` below 256. -/
def crcByte (crc : BitVec 16) (data : BitVec 8) : Outcome (BitVec 16) := do
  let t ← Outcome.readAt crcTable ((crc >>> 8) ^^^ data.setWidth 16).toNat
  pure ((crc <<< 8) ^^^ t)

/-- The loop of `CRC_Block` (common/cmdlib.cc:378-380) over the memory behind `start`, `count` bytes. -/
def crcLoop : BitVec 16 → List (BitVec 8) → Nat → Outcome (BitVec 16)
  | crc, _, 0 => .ok crc
  | _, [], _ + 1 => .ub
  | crc, b :: mem, n + 1 => do
    let c ← crcByte crc b
    crcLoop c mem n

/-- `CRC_Block` (common/cmdlib.cc:374-381); `mem` is the memory from `start` on. With a negative `count` the
loop `while (count--)` runs on until `count` overflows. -/
def crcBlock (mem : List (BitVec 8)) (count : Int) : Outcome (BitVec 16) :=
  if count < 0 then .ub else crcLoop crcInit mem count.toNat

/-! ### Ignoring case -/

/-- `tolower` in the C locale. -/
def toLower (b : UInt8) : UInt8 := if 65 ≤ b && b ≤ 90 then b + 32 else b

/-- The value of a (signed) `char`. -/
def charVal (b : UInt8) : Int := if b.toNat < 128 then b.toNat else b.toNat - 256

/-- `string_iequals` (common/cmdlib.cc:88-98). -/
def iequals (a b : Str) : Bool :=
  if b.length ≠ a.length then false
  else (List.range a.length).all fun i => toLower (a.getD i 0) == toLower (b.getD i 0)

/-- One round of `case_insensitive_hash` (common/cmdlib.cc:105-108) on a 64-bit `size_t`; the `int` given by
`tolower` is sign-extended. -/
def hashStep (hash : BitVec 64) (c : UInt8) : BitVec 64 :=
  (hash ^^^ BitVec.ofInt 64 (charVal (toLower c))) * 0x1000193

/-- `case_insensitive_hash` (common/cmdlib.cc:100-111). -/
def ihash (s : Str) : BitVec 64 := s.foldl hashStep 0x811c9dc5

/-- `c_str()`: the text up to the first NUL. -/
def cstr (s : Str) : Str := s.takeWhile (· ≠ 0)

/-- `strcasecmp` on two C strings: the difference at the first place where the lower-cased bytes differ; a string
that has ended reads as NUL. -/
def strcasecmp : Str → Str → Int
  | [], [] => 0
  | [], b :: _ => 0 - (toLower b).toNat
  | a :: _, [] => (toLower a).toNat
  | a :: as, b :: bs =>
    if toLower a = toLower b then strcasecmp as bs else (toLower a).toNat - (toLower b).toNat

/-- `case_insensitive_equal` (common/cmdlib.cc:113-116). -/
def iequalC (l r : Str) : Bool := strcasecmp (cstr l) (cstr r) == 0

/-- `case_insensitive_less` (common/cmdlib.cc:118-121). -/
def ilessC (l r : Str) : Bool := strcasecmp (cstr l) (cstr r) < 0

/-! ### Replacing -/

/-- `std::string::find(from, start)`: the first position at or behind `start` where `from` occurs. -/
def findFrom (str pat : Str) (start : Nat) : Option Nat :=
  if start ≤ str.length then
    ((List.range (str.length - start + 1)).find? fun k => pat.isPrefixOf (str.drop (start + k))).map (start + ·)
  else none

/-- `std::string::replace(pos, len, rep)`. -/
def replaceAt (str : Str) (pos len : Nat) (rep : Str) : Str := str.take pos ++ rep ++ str.drop (pos + len)

/-- The loop of `string_replaceall` (common/cmdlib.cc:81-85). `fuel` bounds the number of rounds; running out of it
stands for a loop that goes on. -/
def replaceLoop (pat rep : Str) : Nat → Str → Nat → Option Str
  | 0, _, _ => none
  | fuel + 1, str, start =>
    match findFrom str pat start with
    | none => some str
    | some pos => replaceLoop pat rep fuel (replaceAt str pos pat.length rep) (pos + rep.length)

/-- `string_replaceall` (common/cmdlib.cc:74-86), with at most `fuel` rounds. -/
def replaceAll (fuel : Nat) (str pat rep : Str) : Option Str :=
  if pat.isEmpty then some str else replaceLoop pat rep fuel str 0

/-! ### Natural ordering -/

/-- `t_digit` (common/cmdlib.cc:417-420). -/
def isDigit (b : UInt8) : Bool := 48 ≤ b && b ≤ 57

/-- The number of leading `'0'`. -/
def zeros (s : Str) : Nat := (s.takeWhile (· = 48)).length

/-- The digits compared for a number: leading zeros are skipped, except that the last one is kept when nothing
else is left (common/cmdlib.cc:574-602, `p1--`). -/
def number (s : Str) : Str :=
  match (s.dropWhile (· = 48)).takeWhile isDigit with
  | [] => [48]
  | d :: ds => d :: ds

/-- What follows a number (common/cmdlib.cc:615-618). -/
def afterNumber (s : Str) : Str := s.dropWhile isDigit

/-- The character that is compared (common/cmdlib.cc:563-567): itself or its lower case, as a `char`. -/
def charKey (caseSensitive : Bool) (b : UInt8) : Int :=
  charVal (if caseSensitive then b else toLower b)

/-- The order of two different digit strings of one length (common/cmdlib.cc:625-630): the first difference. -/
def digitsLt : Str → Str → Bool
  | a :: as, b :: bs => if a ≠ b then decide (a < b) else digitsLt as bs
  | _, _ => false

theorem afterNumber_lt {b : UInt8} {s : Str} (h : isDigit b = true) :
    (afterNumber (b :: s)).length < (b :: s).length := by
  unfold afterNumber
  rw [List.dropWhile_cons, if_pos h]
  have := List.IsSuffix.length_le (List.dropWhile_suffix isDigit (l := s))
  simp only [List.length_cons]
  omega

/-- `natstrlt` (common/cmdlib.cc:543-644) on C strings. The states `st_scan` and `st_alpha` treat the same
characters the same way and are one here; `st_scan` followed by `st_numeric` is one step. `sz1`, `sz2` count the
leading zeros of the first number where they differ. -/
def natLt (cs : Bool) (l1 l2 : Str) (sz1 sz2 : Nat) : Bool :=
  match l1, l2 with
  | a :: as, b :: bs =>
    if _h1 : isDigit a = true then
      if isDigit b then
        let z1 := if sz1 = 0 then zeros (a :: as) else sz1
        let z2 := if sz2 = 0 then zeros (b :: bs) else sz2
        let n1 := number (a :: as)
        let n2 := number (b :: bs)
        if n1.length = n2.length ∧ n1 = n2 then
          if z1 = z2 then natLt cs (afterNumber (a :: as)) (afterNumber (b :: bs)) 0 0
          else natLt cs (afterNumber (a :: as)) (afterNumber (b :: bs)) z1 z2
        else if n1.length ≠ n2.length then decide (n1.length < n2.length)
        else digitsLt n1 n2
      else true
    else if isDigit b then false
    else if charKey cs a = charKey cs b then natLt cs as bs sz1 sz2
    else decide (charKey cs a < charKey cs b)
  | l1, l2 =>
    if sz1 < sz2 then true
    else if sz1 > sz2 then false
    else if l1 = [] ∧ l2 ≠ [] then true
    else false
  termination_by l1.length
  decreasing_by
    all_goals first
      | exact afterNumber_lt _h1
      | simp

/-- `natural_less` and `natural_case_insensitive_less` (common/cmdlib.cc:646-669). -/
def naturalLess (caseSensitive : Bool) (l r : Str) : Bool := natLt caseSensitive (cstr l) (cstr r) 0 0

end Verif.Cmdlib
