import Verif.Miptex.Chain
import Verif.Miptex.Spec

/-!
What C209 says, apart from the model.
-/

namespace Verif.Miptex.Chain.Spec

open Verif.Cmdlib (Str)
open Miptex.Spec (fold)

/-- What tells two textures of the list apart. -/
def id (t : Tex) : Str × Int × Int × Str := (fold t.name, t.flags, t.value, t.animation)

/-- The file of a texture: it has the name it was asked for; names are C strings. -/
def IsFile (load : Str → Option Meta) (w : Meta) : Prop := load w.name = some w ∧ 0 ∉ w.name ∧ 0 ∉ w.animation

/-- The files of an animation, each the next frame of the one before. -/
def Frames (load : Str → Option Meta) : List Meta → Prop
  | [] => True
  | [w] => IsFile load w
  | w :: v :: l => IsFile load w ∧ w.animation = v.name ∧ w.animation ≠ [] ∧ Frames load (v :: l)

/-- How an animation ends: with a frame that names no other, one that cannot be loaded, itself, or the first. -/
def Ends (load : Str → Option Meta) (first last : Meta) : Prop :=
  last.animation = [] ∨ load last.animation = none ∨ last.animation = last.name ∨ last.animation = first.name

/-- The texture `e` of the list is the frame `w` with the flags and value of `x`. -/
def Shows (x : Info) (w : Meta) (e : Tex) : Prop :=
  fold e.name = fold w.name ∧ e.flags = x.flags ∧ e.value = x.value ∧ e.animation = w.animation

/-- The frames, with their numbers in the list: each is followed by the next, and the last by the texture `first`. -/
def Linked (tbl : List Tex) (x : Info) (first : Nat) : List (Meta × Nat) → Prop
  | [] => True
  | (w, p) :: l =>
    (∃ e, tbl[p]? = some e ∧ Shows x w e ∧ e.next = some (match l with | [] => first | (_, q) :: _ => q)) ∧
      Linked tbl x first l

end Verif.Miptex.Chain.Spec
