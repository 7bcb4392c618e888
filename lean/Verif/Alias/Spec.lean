import Verif.Alias.Model
import Verif.EntData.Lemmas
import Verif.SurfLights.RadSpec

/-! What files with aliases mean. -/

namespace Verif.Alias.Spec

open Verif.EntData (Str Dict Body KeyOk)
open Verif.SurfLights.Spec (Plain)

/-- What may be between words: blanks, newlines and comments up to the end of their line. -/
inductive Gap : Str → Prop
  | nil : Gap []
  | blank {b : UInt8} {g : Str} : b ≤ 32 ∨ 128 ≤ b → b ≠ 0 → Gap g → Gap (b :: g)
  | comment {c g : Str} : (∃ t, c = 47 :: 47 :: t ∨ c = 59 :: t) → 10 ∉ c → 0 ∉ c → Gap g → Gap (c ++ 10 :: g)

/-- A text begins with a word: either a blank follows it, or it is in quotes. The last argument is the rest of the text. -/
inductive Word : Str → Str → Str → Prop
  | plain {w rest : Str} : Plain w → (∃ b r, rest = b :: r ∧ (b ≤ 32 ∨ 128 ≤ b)) → Word (w ++ rest) w rest
  | quoted {w rest : Str} : Body w → Word (34 :: (w ++ 34 :: rest)) w rest

/-- A text begins with pairs of keys and values and `}`. -/
inductive Pairs : Str → Dict → Str → Prop
  | close {g t rest : Str} : Gap g → Word t [125] rest → Pairs (g ++ t) [] rest
  | pair {g t k g' t' v t'' rest : Str} {d : Dict} : Gap g → Word t k (g' ++ t') → Gap g' → Word t' v t'' → KeyOk k → v ≠ [125] →
      Pairs t'' d rest → Pairs (g ++ t) ((k, v) :: d) rest

/-- A file has these aliases: each is a classname, `{`, and pairs with different keys. -/
inductive IsFile : Str → List (Str × Dict) → Prop
  | nil {g : Str} : Gap g → IsFile g []
  | entry {g t name g' t' t'' rest : Str} {d : Dict} {ds : List (Str × Dict)} : Gap g → Word t name (g' ++ t') → Gap g' →
      Word t' [123] t'' → Pairs t'' d rest → (d.map Prod.fst).Nodup → IsFile rest ds → IsFile (g ++ t) ((name, d) :: ds)

/-- The last alias for a name. -/
def LastFor (defs : List (Str × Dict)) (name : Str) (d : Dict) : Prop :=
  ∃ before after, defs = before ++ (name, d) :: after ∧ ∀ x ∈ after, x.1 ≠ name

end Verif.Alias.Spec
