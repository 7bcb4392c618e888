import Verif.NormalsLump.Model
import Verif.Stream.Lemmas

/-! What a reader of the FACENORMALS lump expects. -/

namespace Verif.NormalsLump

open Verif.Stream

variable {F : Type}

/-- The numbers are those of `float`: bits fit into 32 bits and are those of one value; 0, 1 and -1 are what they should be. -/
structure Floats.Sound (fl : Floats F) : Prop where
  bits : ∀ v, f32.Holds (fl.bits v)
  zero : fl.val fl.zero = 0
  one : fl.val fl.one = 1
  minusOne : fl.val fl.minusOne = -1

/-- Two vectors with the same values. -/
def Same (fl : Floats F) (a b : Vec F) : Prop :=
  fl.val a.x = fl.val b.x ∧ fl.val a.y = fl.val b.y ∧ fl.val a.z = fl.val b.z

/-- The entry at an index of the table is this vector. -/
def Entry (fl : Floats F) (table : List (List Int)) (index : Int) (v : Vec F) : Prop :=
  ∃ (k : Nat) (u : Vec F), index = k ∧ Same fl u v ∧ table[k]? = some [fl.bits u.x, fl.bits u.y, fl.bits u.z]

/-- The vertices of a face in the lump are these normals. -/
def FaceEntries (fl : Floats F) (table : List (List Int)) : List (List Int) → List (Normal F) → Prop :=
  List.Forall₂ fun is n => ∃ a b c, is = [a, b, c] ∧ Entry fl table a (snap fl n.normal) ∧ Entry fl table b (snap fl n.tangent) ∧
    Entry fl table c (snap fl n.bitangent)

/-- An axis, with length 1. -/
def Axis (fl : Floats F) (v : Vec F) : Prop :=
  (|fl.val v.x| = 1 ∧ fl.val v.y = 0 ∧ fl.val v.z = 0) ∨ (fl.val v.x = 0 ∧ |fl.val v.y| = 1 ∧ fl.val v.z = 0) ∨
    (fl.val v.x = 0 ∧ fl.val v.y = 0 ∧ |fl.val v.z| = 1)

/-- A vector of length 1. -/
def Unit (fl : Floats F) (v : Vec F) : Prop := fl.val v.x ^ 2 + fl.val v.y ^ 2 + fl.val v.z ^ 2 = 1

end Verif.NormalsLump
