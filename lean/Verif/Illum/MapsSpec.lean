import Verif.Illum.Maps

/-!
What the light maps of a face are to hold.
-/

namespace Verif.Illum

variable {A : Type} [AddCommMonoid A]

/-- The light of a style at a sample: what is in the light map that was saved for the style, nothing if there is none. -/
def lit (d : List (Lm A)) (style i : Nat) : A :=
  match d.find? fun m => decide (m.style = style) with
  | none => 0
  | some m => m.samples.getD i 0

/-- The light of a style over the whole face, as it is bounced. -/
def bounced (d : List (Lm A)) (style : Nat) : A :=
  match d.find? fun m => decide (m.style = style) with
  | none => 0
  | some m => m.bounce

/-- The light maps of a face with `n` samples: no two for the same style, each as large as the face, and nothing in the
one that has not been saved. -/
structure Good (n : Nat) (d : List (Lm A)) : Prop where
  distinct : ∀ i j (hi : i < d.length) (hj : j < d.length), d[i].style = d[j].style → i = j
  size : ∀ m ∈ d, m.samples.length = n
  blank : ∀ m ∈ d, m.style = invalid → m.samples = List.replicate n 0 ∧ m.bounce = 0

/-- The style that a light casts its light in where a ray of it arrives: a light of style 0 in that of the dynamic
shadow it passes, which is 0 if there is none, any other in its own. -/
def Casts (style : Nat) (r : Hit A) (t : Nat) : Prop := (style = 0 ∧ r.dynamic = t) ∨ (style ≠ 0 ∧ style = t)

open Classical in
/-- The sum of what arrives at sample `i` in style `t`. -/
noncomputable def arrives (style : Nat) (rs : List (Hit A)) (t i : Nat) : A :=
  (rs.map fun r => if Casts style r t ∧ r.index = i then r.color else 0).sum

open Classical in
/-- The sum of what arrives at the face in style `t`. -/
noncomputable def arrivesAll (style : Nat) (rs : List (Hit A)) (t : Nat) : A :=
  (rs.map fun r => if Casts style r t then r.color else 0).sum

/-- The sum of what is listed for sample `i`. -/
def listed (rs : List (Nat × A)) (i : Nat) : A := (rs.map fun r => if r.1 = i then r.2 else 0).sum

end Verif.Illum
