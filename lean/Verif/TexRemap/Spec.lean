import Verif.TexRemap.Model
import Verif.SurfLights.RadSpec

/-! What files that replace textures mean. -/

namespace Verif.TexRemap.Spec

open Verif.SurfLights.Spec (Line)

/-- The words of a line replace a name: by the second word, and contents, flags and value if there are more; flags and value are 0 if
only contents are given. -/
def Defines (env : Numbers) (ws : List Text) (name : Text) (d : Def) : Prop :=
  ws = [name, d.to] ∧ d.info = none ∨
  (∃ c x, ws = [name, d.to, c] ∧ env.stoul c = some x ∧ d.info = some ⟨x, 0, 0⟩) ∨
  (∃ c f x y, ws = [name, d.to, c, f] ∧ env.stoul c = some x ∧ env.stoi f = some y ∧ d.info = some ⟨x, y, 0⟩) ∨
  ∃ c f v x y z, ws = [name, d.to, c, f, v] ∧ env.stoul c = some x ∧ env.stoi f = some y ∧ env.stoi v = some z ∧
    d.info = some ⟨x, y, z⟩

/-- A file has lines with these words; each line ends with a newline. -/
inductive IsFile : Text → List (List Text) → Prop
  | nil : IsFile [] []
  | line {l : Text} {ws : List Text} {rest : Text} {wss : List (List Text)} : Line l ws → IsFile rest wss →
      IsFile (l ++ 10 :: rest) (ws :: wss)

/-- The lines are empty, or replace a name. -/
def Valid (env : Numbers) (wss : List (List Text)) : Prop := ∀ ws ∈ wss, ws = [] ∨ ∃ name d, Defines env ws name d

/-- The last line for a name. -/
def LastFor (env : Numbers) (wss : List (List Text)) (name : Text) (d : Def) : Prop :=
  ∃ before ws after, wss = before ++ ws :: after ∧ Defines env ws name d ∧ ∀ ws' ∈ after, ws'.head? ≠ some name

end Verif.TexRemap.Spec
