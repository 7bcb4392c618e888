import Verif.BspFile.File
import Verif.Stream.Lemmas

/-!
Specification of lumps: what data a lump can hold, and what it is after loading.
-/

namespace Verif.BspFile.Spec

open Verif Verif.Stream

/-- A texture that can be loaded: no data, or at least the 40 bytes of a miptex header whose 16-byte name is
terminated. -/
def TexOk : Tex → Prop
  | none => True
  | some d => d = [] ∨ (40 ≤ d.length ∧ 0 ∈ d.take 16)

/-- The data fits the kind of the lump: fields fit their types; a visibility lump has data exactly when it has
clusters. -/
def Typed : LumpKind → LumpData → Prop
  | .text, .text _ => True
  | .raw, .raw _ => True
  | .recs types _, .recs rs => ∀ r ∈ rs, FieldsHold types r
  | .vis, .vis offsets bits => (∀ r ∈ offsets, FieldsHold [i32, i32] r) ∧ (offsets = [] ↔ bits = [])
  | .tex, .tex ts => ∀ t ∈ ts, TexOk t
  | .unused, .unused => True
  | _, _ => False

/-- The size in the table is the size of the fields. -/
def KindOk : LumpKind → Prop
  | .recs types size => width types = size ∧ 0 < size ∧ ∀ k ∈ types, 0 < k.bytes
  | _ => True

/-- The textures after loading: data that is followed by another texture is padded with zeros to a multiple of 4. -/
def texLoaded : List Tex → List Tex
  | [] => []
  | none :: ts => none :: texLoaded ts
  | some d :: ts =>
    some (d ++ List.replicate (if ts.any Option.isSome then padTo4 d.length else 0) 0) :: texLoaded ts

/-- The data after loading. -/
def loaded : LumpData → LumpData
  | .tex ts => .tex (texLoaded ts)
  | d => d

end Verif.BspFile.Spec
