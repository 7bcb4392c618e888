import Verif.SurfLights.RadFile

/-!
What files with lights of textures mean.
-/

namespace Verif.SurfLights.Spec

open Verif.EntData (Str Dict)

/-- Bytes between words in a line. -/
def Space (s : Str) : Prop := ∀ b ∈ s, (b ≤ 32 ∨ 128 ≤ b) ∧ b ≠ 0 ∧ b ≠ 10

/-- A word without quotes that is not a comment. -/
def Plain (w : Str) : Prop :=
  w ≠ [] ∧ (∀ b ∈ w, 32 < b ∧ b < 128) ∧ w.head? ≠ some 34 ∧ w.head? ≠ some 59 ∧ ¬ ∃ t, w = 47 :: 47 :: t

/-- A line has these words; the rest of it may be a comment. -/
inductive Line : Str → List Str → Prop
  | blank {s : Str} : Space s → Line s []
  | comment {s c : Str} : Space s → (∃ t, c = 47 :: 47 :: t ∨ c = 59 :: t) → 10 ∉ c → 0 ∉ c → Line (s ++ c) []
  | word {s w rest : Str} {ws : List Str} : Space s → Plain w → (rest = [] ∨ ∃ b r, rest = b :: r ∧ (b ≤ 32 ∨ 128 ≤ b) ∧ b ≠ 0 ∧ b ≠ 10) →
      Line rest ws → Line (s ++ w ++ rest) (w :: ws)

variable {F : Type}

/-- The light of a line: for the texture in the first word, with the colour in the next three and the brightness in the fifth.
More words mean nothing. -/
def LightOf (env : Numbers F) (ws : List Str) (d : Dict) : Prop :=
  ∃ name r g b rest x y z, ws = name :: r :: g :: b :: rest ∧ env.stod r = some x ∧ env.stod g = some y ∧ env.stod b = some z ∧
    (∀ k, EntData.find d k = if k = keySurface then some name else if k = keyColor then some (env.format x y z)
      else if k = keyLight then some (rest.headD []) else none)

/-- The lines of a text: it is they, with a newline between each two. -/
def IsLines (ls : List Str) (text : Str) : Prop := ls ≠ [] ∧ (∀ l ∈ ls, 10 ∉ l) ∧ text = List.intercalate [10] ls

/-- The lights of lines, in their order: none for lines without words. -/
inductive Lights (env : Numbers F) : List Str → List Dict → Prop
  | nil : Lights env [] []
  | empty {l : Str} {ls : List Str} {ds : List Dict} : Line l [] → Lights env ls ds → Lights env (l :: ls) ds
  | light {l : Str} {ls ws : List Str} {d : Dict} {ds : List Dict} : Line l ws → LightOf env ws d → Lights env ls ds →
      Lights env (l :: ls) (d :: ds)

end Verif.SurfLights.Spec
