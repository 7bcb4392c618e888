import Verif.Stream.Model
import Mathlib.Data.Rat.Floor

/-!
Model of checked numeric conversions: include/common/numeric_cast.hh and the clipnode children of the 16-bit format
(common/bspfile_q1.cc:144-157).
-/

namespace Verif.BspFile

open Verif Verif.Stream

/-! ### Integers -/

/-- Integral promotion of C++: types smaller than `int` become `int`. -/
def promote (k : Scalar) : Scalar := if k.bytes < 4 then i32 else k

/-- The type in which C++ compares values of two integer types (usual arithmetic conversions). -/
def common (a b : Scalar) : Scalar :=
  let a := promote a
  let b := promote b
  if a.signed = b.signed then
    if b.bytes ≤ a.bytes then a else b
  else
    let s := if a.signed then a else b
    let u := if a.signed then b else a
    if u.bytes < s.bytes then s else u

/-- `x < y` in C++, for `x` of type `kx` and `y` of type `ky`. -/
def ltC (kx : Scalar) (x : Int) (ky : Scalar) (y : Int) : Bool :=
  decide ((common kx ky).wrap x < (common kx ky).wrap y)

/-- `numeric_cast_will_overflow` (include/common/numeric_cast.hh:25-80) for integer types. -/
def willOverflow (dst src : Scalar) (value : Int) : Bool :=
  let positivePossible := ltC dst dst.hi src src.hi
  let negativePossible := src.signed || ltC src src.lo dst dst.lo
  if !dst.signed && !src.signed then
    positivePossible && ltC dst dst.hi src value
  else if !dst.signed && src.signed then
    (positivePossible && ltC dst dst.hi src value) || (negativePossible && ltC src value i32 0)
  else if dst.signed && !src.signed then
    positivePossible && ltC dst dst.hi src value
  else
    (positivePossible && ltC dst dst.hi src value) || (negativePossible && ltC src value dst dst.lo)

/-- `numeric_cast` (include/common/numeric_cast.hh:82-90) for integer types. -/
def numericCast (dst src : Scalar) (value : Int) : Outcome Int :=
  if willOverflow dst src value then .error else .ok (dst.wrap value)

/-! ### Floating point -/

/-- Floating-point values. -/
inductive Flt where
  | nan
  | ninf
  | fin (q : Rat)
  | inf
  deriving DecidableEq

/-- The value of the bit pattern of a `float` (IEEE 754 binary32). -/
def f32val (b : Int) : Flt :=
  let s : Int := b / 2 ^ 31 % 2
  let e := (b / 2 ^ 23 % 256).toNat
  let m : Int := b % 2 ^ 23
  let sgn : Rat := if s = 1 then -1 else 1
  if e = 255 then
    if m = 0 then (if s = 1 then .ninf else .inf) else .nan
  else if e = 0 then .fin (sgn * (m * (1 / 2 ^ 149)))
  else .fin (sgn * ((2 ^ 23 + m) * (2 ^ e / 2 ^ 150)))

/-- The bit pattern of the `float` of an integer whose magnitude is below 2^24 (conversion is then exact). -/
def f32ofInt (n : Int) : Int :=
  if n = 0 then 0
  else
    let a := n.natAbs
    let e := a.log2
    (if n < 0 then 2 ^ 31 else 0) + (e + 127 : Nat) * 2 ^ 23 + (a * 2 ^ (23 - e) - 2 ^ 23 : Nat)

/-- `floor`. -/
def Flt.floor : Flt → Flt
  | .fin q => .fin ⌊q⌋
  | x => x

/-- `ceil`. -/
def Flt.ceil : Flt → Flt
  | .fin q => .fin ⌈q⌉
  | x => x

/-- `x < y` on floating-point values: false when one is NaN. -/
def Flt.lt : Flt → Flt → Bool
  | .fin a, .fin b => decide (a < b)
  | .ninf, .fin _ => true
  | .ninf, .inf => true
  | .fin _, .inf => true
  | _, _ => false

/-- `numeric_cast<int16_t>` of a `float` (include/common/numeric_cast.hh:25-90): "signed <-- signed", both overflow
directions possible. The limits of `int16_t` are exact as `float`. Converting a value outside the type is undefined. -/
def castI16 (x : Flt) : Outcome Int :=
  if Flt.lt (.fin 32767) x || Flt.lt x (.fin (-32768)) then .error
  else match x with
    | .fin q =>
      let t := if 0 ≤ q then ⌊q⌋ else ⌈q⌉
      if i16.lo ≤ t ∧ t ≤ i16.hi then .ok t else .ub
    | _ => .ub

/-- One coordinate of `aabb_mins_cast<int16_t>` (include/common/numeric_cast.hh:94-103), of a `float`. -/
def minsCast (bits : Int) : Outcome Int := castI16 (f32val bits).floor

/-- One coordinate of `aabb_maxs_cast<int16_t>` (include/common/numeric_cast.hh:105-114), of a `float`. -/
def maxsCast (bits : Int) : Outcome Int := castI16 (f32val bits).ceil

/-! ### Children of clipnodes -/

/-- `bsp29_dclipnode_t::downcast` (common/bspfile_q1.cc:144-151). -/
def clipDowncast (v : Int) : Outcome Int :=
  if v < -15 ∨ v > 0xFFF0 then .error
  else .ok (i16.wrap (if v < 0 then v + 0x10000 else v))

/-- `bsp29_dclipnode_t::upcast` (common/bspfile_q1.cc:153-157). -/
def clipUpcast (v : Int) : Int :=
  let child := u16.wrap v
  if child > 0xfff0 then child - 0x10000 else child

end Verif.BspFile
