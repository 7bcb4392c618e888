import Verif.Target.Model

/-! What the format and the options of qbsp must be. -/

namespace Verif.Target.Spec

open Settings (Source)

/-- The formats that are asked for, one for each flag; `-q2rtx` asks for Quake II if neither flag of Quake II was given any value. -/
def asked (o : Options) : List Ver :=
  (if o.hlbsp.value then [.hl] else []) ++
  (if o.q2bsp.value ∨ (o.q2rtx.value ∧ o.q2bsp.source = .default ∧ o.qbism.source = .default) then [.q2] else []) ++
  (if o.qbism.value then [.qbism] else []) ++ (if o.bsp2.value then [.bsp2] else []) ++ (if o.bsp2rmq.value then [.bsp2rmq] else [])

/-- The format with `-hexen2`: the same kind of limits, but of Hexen II. -/
inductive HexenOf : Ver → Ver → Prop
  | bsp2 : HexenOf .bsp2 .h2bsp2
  | rmq : HexenOf .bsp2rmq .h2bsp2rmq

/-- An option behind: if the user did not set it and the condition holds it has the value, and it is known where it came from; otherwise
it is as it was. -/
def Set {α : Type} (c : Prop) (v : α) (o o' : Opt α) : Prop :=
  (o.source = .default ∧ c → o'.value = v ∧ o'.source = .gameTarget) ∧ (¬ (o.source = .default ∧ c) → o' = o)

/-- The options behind. -/
structure Effects (o o' : Options) : Prop where
  includeskip : Set (o.q2rtx.value = true) true o.includeskip o'.includeskip
  software : Set (o.q2rtx.value = true ∨ o'.version = some .qbism) false o.software o'.software
  maxedges : Set (o'.version = some .q2 ∨ o'.version = some .qbism) 0 o.maxedges o'.maxedges
  subdivide : Set ((o'.version = some .q2 ∨ o'.version = some .qbism) ∧ o'.software.value = false) 496 o.subdivide o'.subdivide
  chop : Set (o'.version = some .q2 ∨ o'.version = some .qbism) true o.chop o'.chop
  flags : o'.hexen2 = o.hexen2 ∧ o'.hlbsp = o.hlbsp ∧ o'.q2bsp = o.q2bsp ∧ o'.qbism = o.qbism ∧ o'.bsp2 = o.bsp2 ∧
    o'.bsp2rmq = o.bsp2rmq ∧ o'.q2rtx = o.q2rtx

end Verif.Target.Spec
