import Verif.Miptex.Data
import Verif.Textures.Spec

/-!
What the textures in a BSP file shall be, in terms of bytes.
-/

namespace Verif.Miptex.Spec

open Verif.Textures.Spec (u32At i32At bytes)
open Verif.BspFile (Tex)

/-- The file with the texture of a name, and whether it is in an archive from which nothing shall be copied. Files that are
shorter than the 40 bytes of a header are no textures. -/
def Source (find : List Byte → Option Hit) (name : List Byte) (external : Bool) (f : List Byte) : Prop :=
  find name = some ⟨external, some f⟩ ∧ 40 ≤ f.length

/-- There is no file for the name. -/
def Missing (find : List Byte → Option Hit) (name : List Byte) : Prop := ∀ ext f, find name ≠ some ⟨ext, some f⟩

/-- Data with a name and a size, and with no images: 40 bytes, of which the first 16 are the name, or its first 15 bytes, and
zeros. -/
def Bare (name : List Byte) (w h : Nat) (d : List Byte) : Prop :=
  d.length = 40 ∧ (∀ i < 15, d.getD i 0 = name.getD i 0) ∧ d.getD 15 0 = 0 ∧
    u32At d 16 = w ∧ u32At d 20 = h ∧ i32At d 24 = 0 ∧ i32At d 28 = 0 ∧ i32At d 32 = 0 ∧ i32At d 36 = 0

/-- No texture is stored for empty names, and for sizes of 0 unless they are wanted. -/
def NotStored (o : DataOptions) (name : List Byte) (w h : Nat) : Prop :=
  name = [] ∨ (o.zeroSize = false ∧ (w = 0 ∨ h = 0))

/-- Only the header is stored, or nothing. -/
def HeaderOnly (o : DataOptions) (name : List Byte) (w h : Nat) (t : Tex) : Prop :=
  (NotStored o name w h → t = none) ∧ (¬ NotStored o name w h → ∃ d, t = some d ∧ Bare name w h d)

end Verif.Miptex.Spec
