import Verif.Archive.Model
import Verif.Cmdlib.Spec

/-!
What a pak or wad file says it holds, read off its bytes by position, and what a search for a file should find.
-/

namespace Verif.Archive

open Verif
open Verif.Cmdlib (Str)
open Verif.Cmdlib.Spec (SameText)

/-- `n` bytes of a file from position `off` on. -/
def slice (bytes : List Byte) (off n : Nat) : List Byte := (bytes.drop off).take n

/-- The little-endian number in the four bytes at `off`. -/
def u32At (bytes : List Byte) (off : Nat) : Nat := leDecode (slice bytes off 4)

/-- A text that ends at its first zero byte. -/
def textOf (field : List Byte) : Str := (field.takeWhile (· ≠ 0)).map UInt8.ofBitVec

/-- An entry of the directory of an archive. -/
structure Entry where
  name : Str
  offset : Nat
  size : Nat
  deriving DecidableEq, Repr

/-- Where an entry of the directory keeps its fields. -/
structure Layout where
  width : Nat
  nameAt : Nat
  nameLen : Nat
  offsetAt : Nat
  sizeAt : Nat

/-- The entries of a pak: 56 bytes of name, the offset and the size. -/
def pakLayout : Layout := ⟨64, 0, 56, 56, 60⟩

/-- The entries of a wad: the offset, the size on disk, the uncompressed size, type, compression, two bytes of
padding and 16 bytes of name. -/
def wadLayout : Layout := ⟨32, 16, 16, 0, 4⟩

/-- The entry at position `at_`. -/
def entryAt (y : Layout) (bytes : List Byte) (at_ : Nat) : Entry :=
  ⟨textOf (slice bytes (at_ + y.nameAt) y.nameLen), u32At bytes (at_ + y.offsetAt), u32At bytes (at_ + y.sizeAt)⟩

/-- The `n` entries of a directory that starts at `start`. -/
def directory (y : Layout) (bytes : List Byte) (start n : Nat) : List Entry :=
  (List.range n).map fun i => entryAt y bytes (start + y.width * i)

/-- The directory lies within the file and every name in it is terminated. -/
def DirectorySound (y : Layout) (bytes : List Byte) (start n : Nat) : Prop :=
  ∀ i < n, start + y.width * (i + 1) ≤ bytes.length ∧
    (0 : Byte) ∈ slice bytes (start + y.width * i + y.nameAt) y.nameLen

/-- The directory of a pak: offset and size in bytes are the second and third words of the file. -/
def pakDirectory (bytes : List Byte) : List Entry :=
  directory pakLayout bytes (u32At bytes 4) (u32At bytes 8 / 64)

/-- The directory of a wad: number of entries and offset are the second and third words of the file. -/
def wadDirectory (bytes : List Byte) : List Entry :=
  directory wadLayout bytes (u32At bytes 8) (u32At bytes 4)

/-- A pak with a sound directory. -/
def PakSound (bytes : List Byte) : Prop :=
  12 ≤ bytes.length ∧ slice bytes 0 4 = [0x50, 0x41, 0x43, 0x4b] ∧
    DirectorySound pakLayout bytes (u32At bytes 4) (u32At bytes 8 / 64)

/-- A wad with a sound directory. -/
def WadSound (bytes : List Byte) : Prop :=
  12 ≤ bytes.length ∧ (slice bytes 0 4 = [0x57, 0x41, 0x44, 0x32] ∨ slice bytes 0 4 = [0x57, 0x41, 0x44, 0x33]) ∧
    DirectorySound wadLayout bytes (u32At bytes 8) (u32At bytes 4)

/-- `e` is the last entry of the directory with the given name, in any case. -/
def Latest (dir : List Entry) (name : Str) (e : Entry) : Prop :=
  ∃ l r, dir = l ++ e :: r ∧ SameText e.name name ∧ ∀ f ∈ r, ¬ SameText f.name name

/-- The data of an entry lies within the file. -/
def Within (bytes : List Byte) (e : Entry) : Prop := e.offset + e.size ≤ bytes.length

/-- An archive after loading the named files from it, one after the other. -/
def Pack.after (p : Pack) : List Str → Pack
  | [] => p
  | n :: l => ((p.load n).2).after l

/-- What an opened archive promises: it contains the names in its directory, and after any sequence of loads, loading
a name gives the bytes of the last entry with that name, and fails for other names. -/
def Faithful (bytes : List Byte) (dir : List Entry) (p : Pack) : Prop :=
  ∀ (history : List Str) (name : Str), 0 ∉ name →
    ((p.after history).contains name = true ↔ ∃ e ∈ dir, SameText e.name name) ∧
    (∀ e, Latest dir name e →
      ((p.after history).load name).1 = some (slice bytes e.offset e.size)) ∧
    ((∀ e ∈ dir, ¬ SameText e.name name) → ((p.after history).load name).1 = none)

end Verif.Archive
