import Verif.Styles.Arghrad

/-! What users of the keys of Arghrad expect. -/

namespace Verif.Styles

open Verif.EntData (Str Dict find)

variable {F : Type} [Field F] [LinearOrder F]

/-- A number from 0 to 2 as one from 0 to 1. -/
def Halved (env : Texts F) (v : Str) : Str := env.show_ (min 1 (max 0 (env.value v / 2)))

/-- The values of a light's keys, given those that the map has for it: `delay`, `wait` and `_anglescale` come from the keys of
Arghrad where the map has none. -/
def Converted (env : Texts F) (old : Str → Option Str) (key : Str) : Option Str :=
  if key = lit "delay" then (old (lit "delay")).or (old (lit "_falloff"))
  else if key = lit "_falloff" then old (lit "_distance")
  else if key = lit "wait" then (old (lit "wait")).or (old (lit "_fade"))
  else if key = lit "_anglescale" then
    ((old (lit "_anglescale")).or ((old (lit "_angfade")).or (old (lit "_angwait")))).map (Halved env)
  else if key = lit "_distance" ∨ key = lit "_fade" ∨ key = lit "_angfade" ∨ key = lit "_angwait" then none
  else old key

/-- A key occurs at most once. -/
def Once (d : Dict) (key : Str) : Prop := (d.map Prod.fst).count key ≤ 1

/-- An entity with at most one of each of the keys of Arghrad. -/
def KeysOnce (d : Dict) : Prop :=
  Once d (lit "_falloff") ∧ Once d (lit "_distance") ∧ Once d (lit "_fade") ∧ Once d (lit "_angfade") ∧ Once d (lit "_angwait")

/-- The entities that become lights: classes that start with `light`; with `-nolighting` only those with a style, or with the
style of a shadow. -/
def Wanted (o : LoadOptions) (d : Dict) : Prop :=
  (∃ c rest, find d (lit "classname") = some c ∧ c = lit "light" ++ rest) ∧
    (o.nolighting = true → (∃ s, find d (lit "style") = some s ∧ s ≠ []) ∨
      ∃ s, find d (lit "switchshadstyle") = some s ∧ s ≠ [])

end Verif.Styles
