import Verif.Common.Outcome
import Verif.Common.LE

/-!
Model of binary streams: scalars and records in little-endian byte order (include/common/cmdlib.hh:107-490) and
streams over memory (common/cmdlib.cc:123-330).

Floating-point values are their 32-bit patterns. Loading and writing of files is modelled on a little-endian
machine; `putScalar`/`getScalar` also model byte swapping.
-/

namespace Verif.Stream

open Verif

/-- An integer type of a file format: its size in bytes and its signedness. A `float` is its bit pattern. -/
structure Scalar where
  bytes : Nat
  signed : Bool
  deriving DecidableEq, Repr

abbrev i8 : Scalar := ⟨1, true⟩
abbrev u8 : Scalar := ⟨1, false⟩
abbrev i16 : Scalar := ⟨2, true⟩
abbrev u16 : Scalar := ⟨2, false⟩
abbrev i32 : Scalar := ⟨4, true⟩
abbrev u32 : Scalar := ⟨4, false⟩
abbrev i64 : Scalar := ⟨8, true⟩
abbrev u64 : Scalar := ⟨8, false⟩
abbrev f32 : Scalar := ⟨4, false⟩

/-- The smallest value of the type. -/
def Scalar.lo (k : Scalar) : Int := if k.signed then -(2 ^ (8 * k.bytes - 1) : Nat) else 0

/-- The largest value of the type. -/
def Scalar.hi (k : Scalar) : Int :=
  if k.signed then (2 ^ (8 * k.bytes - 1) : Nat) - 1 else (2 ^ (8 * k.bytes) : Nat) - 1

/-- Conversion of an integer to the type, as `static_cast` does it: modulo 2^n. -/
def Scalar.wrap (k : Scalar) (v : Int) : Int :=
  let u := v % (2 ^ (8 * k.bytes) : Nat)
  if k.signed && decide ((2 ^ (8 * k.bytes - 1) : Nat) ≤ u) then u - (2 ^ (8 * k.bytes) : Nat) else u

/-- The bytes of a value in memory, on a little-endian machine. -/
def Scalar.encode (k : Scalar) (v : Int) : List Byte := leEncode k.bytes (v % (2 ^ (8 * k.bytes) : Nat)).toNat

/-- The value of the bytes in memory, on a little-endian machine. -/
def Scalar.decode (k : Scalar) (bs : List Byte) : Int := k.wrap (leDecode bs)

/-! ### Byte order -/

/-- Byte orders of a machine or a stream; `native` is a stream on which no order was set
(include/common/cmdlib.hh:122-128). -/
inductive Endian where
  | native
  | little
  | big
  deriving DecidableEq

/-- `detail::need_swap` (common/cmdlib.cc:695-705). `machineLittle`: `std::endian::native` is `little`. -/
def needSwap (machineLittle : Bool) : Endian → Bool
  | .native => false
  | .little => !machineLittle
  | .big => machineLittle

/-- The bytes of a value in the memory of the machine. -/
def memBytes (machineLittle : Bool) (k : Scalar) (v : Int) : List Byte :=
  if machineLittle then k.encode v else (k.encode v).reverse

/-- The value of bytes in the memory of the machine. -/
def memValue (machineLittle : Bool) (k : Scalar) (bs : List Byte) : Int :=
  if machineLittle then k.decode bs else k.decode bs.reverse

/-- `detail::write_swapped` (include/common/cmdlib.hh:132-140): the bytes from the last to the first. -/
def writeSwapped (bs : List Byte) : List Byte :=
  (List.range bs.length).map fun i => bs.getD (bs.length - 1 - i) 0

/-- `detail::read_swapped` (include/common/cmdlib.hh:142-150): each byte read goes to the last free place. -/
def readSwapped (bs : List Byte) : List Byte := bs.foldl (fun val b => b :: val) []

/-- `operator<=` for scalars (include/common/cmdlib.hh:197-296): the bytes that are written. -/
def putScalar (machineLittle : Bool) (e : Endian) (k : Scalar) (v : Int) : List Byte :=
  if needSwap machineLittle e then writeSwapped (memBytes machineLittle k v) else memBytes machineLittle k v

/-- `operator>=` for scalars (include/common/cmdlib.hh:354-453), on the bytes that are read. -/
def getScalar (machineLittle : Bool) (e : Endian) (k : Scalar) (bs : List Byte) : Int :=
  memValue machineLittle k (if needSwap machineLittle e then readSwapped bs else bs)

/-! ### Reading from memory -/

/-- An `imemstream` (common/cmdlib.cc:123-266): the memory, the get pointer relative to its start, and whether
`failbit` is set. -/
structure IStream where
  mem : List Byte
  pos : Int
  failed : Bool
  deriving DecidableEq

/-- `imemstream` constructor (common/cmdlib.cc:138-145, 262-266). -/
def IStream.open (mem : List Byte) : IStream := ⟨mem, 0, false⟩

/-- `std::istream::read` on `membuf::xsgetn` (common/cmdlib.cc:217-230). On a failed stream nothing happens. At the
end `eof()` is returned, which is not `n`, so `failbit` is set. Otherwise `n` bytes (not `num_read`) are copied.
`none`: nothing was stored. -/
def IStream.read (s : IStream) (n : Nat) : Outcome (Option (List Byte) × IStream) :=
  if s.failed then .ok (none, s)
  else if s.pos = s.mem.length then .ok (none, { s with failed := true })
  else if 0 ≤ s.pos ∧ s.pos + n ≤ s.mem.length then
    .ok (some ((s.mem.drop s.pos.toNat).take n), { s with pos := s.pos + n })
  else .ub

/-- `std::istream::seekg` to a position (common/cmdlib.cc:153-195). -/
def IStream.seek (s : IStream) (off : Int) : IStream := if s.failed then s else { s with pos := off }

/-- Reading one scalar. -/
def IStream.scalar (s : IStream) (k : Scalar) : Outcome (Option Int × IStream) := do
  let r ← s.read k.bytes
  pure (r.1.map k.decode, r.2)

/-- `operator>=` for tuples and arrays (include/common/cmdlib.hh:455-469): field after field. `none` when some field
was not stored. -/
def IStream.fields (s : IStream) : List Scalar → Outcome (Option (List Int) × IStream)
  | [] => .ok (some [], s)
  | k :: ks => do
    let r ← s.scalar k
    let q ← r.2.fields ks
    pure (match r.1, q.1 with
      | some v, some vs => some (v :: vs)
      | _, _ => none, q.2)

/-- Reading `n` records of the same fields. -/
def IStream.records (s : IStream) (ks : List Scalar) : Nat → Outcome (Option (List (List Int)) × IStream)
  | 0 => .ok (some [], s)
  | n + 1 => do
    let r ← s.fields ks
    let q ← r.2.records ks n
    pure (match r.1, q.1 with
      | some v, some vs => some (v :: vs)
      | _, _ => none, q.2)

/-- `operator<=` for tuples and arrays (include/common/cmdlib.hh:298-312), on a little-endian stream. -/
def encodeFields : List Scalar → List Int → List Byte
  | k :: ks, v :: vs => k.encode v ++ encodeFields ks vs
  | _, _ => []

/-! ### Writing to memory -/

/-- An `omemstream`: the memory, the put pointer relative to its start, and whether `badbit` is set. -/
structure OStream where
  mem : List Byte
  pos : Int
  failed : Bool
  deriving DecidableEq

/-- `std::ostream::write` on `membuf::xsputn` (common/cmdlib.cc:197-210). At the end `eof()` is returned, which is not
the number of bytes, so `badbit` is set. Otherwise all bytes (not `num_write`) are copied. -/
def OStream.write (s : OStream) (bs : List Byte) : Outcome OStream :=
  if s.failed then .ok s
  else if s.pos = s.mem.length then .ok { s with failed := true }
  else if 0 ≤ s.pos ∧ s.pos + bs.length ≤ s.mem.length then
    .ok { s with mem := s.mem.take s.pos.toNat ++ bs ++ s.mem.drop (s.pos.toNat + bs.length), pos := s.pos + bs.length }
  else .ub

/-! ### Counting written bytes -/

/-- An `omemsizebuf` (common/cmdlib.cc:268-322): put pointer and end of the (absent) put area, relative to its start. -/
structure SizeStream where
  pos : Int
  fin : Int

/-- `omemsizebuf::xsputn` (common/cmdlib.cc:304-316): only a put pointer at the end makes the area grow. -/
def SizeStream.write (s : SizeStream) (n : Nat) : SizeStream :=
  let fin := if s.pos = s.fin then s.fin + n else s.fin
  ⟨s.pos + n, fin⟩

end Verif.Stream
