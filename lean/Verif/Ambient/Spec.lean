import Verif.Ambient.Model

/-!
What C223 says, apart from the model.
-/

namespace Verif.Ambient.Spec

/-- The textures that make a sound, and the option against it. -/
def Makes (o : Opts) (name : Str) : Fin 4 → Prop
  | 0 => ((iprefix name "*water".toList = true ∨ iprefix name "*04water".toList = true) ∧ o.noWater = false) ∨
         (iprefix name "*slime".toList = true ∧ o.noSlime = false)
  | 1 => iprefix name "sky".toList = true ∧ o.noSky = false
  | 2 => False
  | 3 => iprefix name "*lava".toList = true ∧ o.noLava = false

/-- A leaf has a face with such a texture. -/
def Emits (b : Bsp) (o : Opts) (hit : Leaf) (a : Fin 4) : Prop :=
  ∃ k < hit.num, ∃ fnum f mt name, b.marks[hit.first + k]? = some fnum ∧ b.faces[fnum]? = some f ∧ b.miptex[f.texinfo]? = some mt ∧
    0 ≤ mt ∧ b.names[mt.toNat]? = some name ∧ Makes o name a

/-- Leaf `i` (counted without the solid leaf 0) sees leaf `j`. -/
def Sees (v : Vis) (i : Nat) (l : Leaf) (j : Nat) : Prop :=
  ∃ x row : Nat, (row : Int) = (if v.clusters then l.cluster else (i : Int)) * v.rowBytes + (j / 8 : Nat) ∧ v.bytes[row]? = some x ∧
    x.testBit (j % 8) = true

/-- A leaf hears a sound if one of the leafs it sees has a face that makes it. -/
def Hears (b : Bsp) (o : Opts) (v : Vis) (leafs : List Leaf) (i : Nat) (l : Leaf) (a : Fin 4) : Prop :=
  ∃ j < v.leafs, Sees v i l j ∧ ∃ hit, leafs[j + 1]? = some hit ∧ Emits b o hit a

end Verif.Ambient.Spec
