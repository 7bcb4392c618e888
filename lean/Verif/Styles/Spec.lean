import Verif.Styles.Model
import Mathlib.Data.List.Dedup

/-!
Specification of the light styles of switchable lights and shadows.
-/

namespace Verif.Styles

open Verif
open Verif.EntData (Str Dict get set find)

/-- The name by which an entity is switched; empty if it has none. -/
def nameOf (d : Dict) : Str := get d (lit "targetname")

/-- A light entity: its class starts with `light`. -/
def IsLight (d : Dict) : Prop := lit "light" <+: get d (lit "classname")

/-- The entity casts a switchable shadow. -/
def IsShadow (d : Dict) : Prop := getInt d (lit "_switchableshadow") = .ok 1

/-- The keys of an entity that must get a light style. -/
inductive Slot (d : Dict) : Str → Prop
  | light : IsLight d → nameOf d ≠ [] → Slot d (lit "style")
  | shadow : IsShadow d → Slot d (lit "switchshadstyle")

/-- The styles are given out as they should be: every slot has the number of a style in the range; two slots have the
same style if they belong to entities of the same name, and only then; an entity without a name has a style for
itself. -/
structure Assigned (start max : Int) (before after : List Dict) : Prop where
  length : after.length = before.length
  range : ∀ (i : Nat) (d e : Dict) (k : Str), before[i]? = some d → after[i]? = some e → Slot d k →
    ∃ s, start ≤ s ∧ s < max ∧ find e k = some (decimal s)
  same : ∀ (i j : Nat) (d e d' e' : Dict) (k k' : Str), before[i]? = some d → after[i]? = some e → before[j]? = some d' →
    after[j]? = some e' → Slot d k → Slot d' k' →
    (find e k = find e' k' ↔ (nameOf d = nameOf d' ∧ nameOf d ≠ []) ∨ (i = j ∧ k = k'))

instance (d : Dict) : Decidable (IsLight d) := inferInstanceAs (Decidable (_ <+: _))

instance (d : Dict) : Decidable (IsShadow d) := inferInstanceAs (Decidable (_ = _))

/-- The names of the slots of an entity. -/
def slotNames (d : Dict) : List Str :=
  (if IsLight d ∧ nameOf d ≠ [] then [nameOf d] else []) ++ (if IsShadow d then [nameOf d] else [])

/-- The number of styles needed: one for each name, and one for each switchable shadow without a name. -/
def needed (ents : List Dict) : Nat :=
  ((ents.flatMap slotNames).filter (· ≠ [])).dedup.length + (ents.flatMap slotNames).count []

/-- Nothing undefined happens to the entity: it has no key `lightmap_scale`, and its `_switchableshadow` is an `int`. -/
def Defined (d : Dict) : Prop := get d (lit "lightmap_scale") = [] ∧ getInt d (lit "_switchableshadow") ≠ .ub

/-- A text that has no escape sequence. -/
def Unescaped (v : Str) : Prop := ¬ [92, 98] <:+: v

end Verif.Styles
