import Verif.Common.Outcome
import Verif.Settings.Model

/-!
Model of the choice of the format that qbsp writes: `set_target_version` and the first part of `qbsp_settings::postinitialize`
(qbsp/qbsp.cc:442-450, 680-766), and `reset` (qbsp/qbsp.cc:780-790).

Simplifications: a format is a name; what has a range or a validator (`maxedges`, `subdivide`) is only ever given values within it. The
search paths of wads and the files of definitions (qbsp/qbsp.cc:725-734, 768-775) are left out.
-/

namespace Verif.Target

open Settings (Source changeSource)

/-- The formats (common/bspfile.cc: `bspver_*`). -/
inductive Ver where
  | q1 | bsp2 | bsp2rmq | h2 | h2bsp2 | h2bsp2rmq | hl | q2 | qbism
  deriving DecidableEq, Repr

/-- `target_version->game->id == GAME_QUAKE_II` (common/bspfile.cc: the `game` of each format). -/
def Ver.isQ2 : Ver → Bool
  | .q2 | .qbism => true
  | _ => false

/-- `setting_value<T>` (include/common/settings.hh:160-202). -/
structure Opt (α : Type) where
  value : α
  source : Source
  deriving DecidableEq

/-- `is_changed` (include/common/settings.hh:126). -/
def Opt.changed {α : Type} (o : Opt α) : Bool := o.source ≠ .default

/-- `set_value` (include/common/settings.hh:180-185). -/
def Opt.set {α : Type} (o : Opt α) (v : α) (s : Source) : Opt α :=
  match changeSource o.source s with
  | some s' => ⟨v, s'⟩
  | none => o

/-- The options that are read or written (include/qbsp/qbsp.hh:166-229), and `target_version`. -/
structure Options where
  hexen2 : Opt Bool
  hlbsp : Opt Bool
  q2bsp : Opt Bool
  qbism : Opt Bool
  bsp2 : Opt Bool
  bsp2rmq : Opt Bool
  q2rtx : Opt Bool
  software : Opt Bool
  includeskip : Opt Bool
  maxedges : Opt Int
  subdivide : Opt Int
  chop : Opt Bool
  version : Option Ver
  deriving DecidableEq

/-- `set_target_version` (qbsp/qbsp.cc:442-450). -/
def setVersion (v : Ver) (o : Options) : Outcome Options :=
  match o.version with
  | some _ => .error
  | none => .ok { o with version := some v }

/-- `if (c) { set_target_version(v); }`. -/
def setVersionIf (c : Bool) (v : Ver) (o : Options) : Outcome Options := if c then setVersion v o else .ok o

/-- Whether the format of Quake II is wanted (qbsp/qbsp.cc:687). -/
def wantsQ2 (o : Options) : Bool := o.q2bsp.value || (o.q2rtx.value && !o.q2bsp.changed && !o.qbism.changed)

/-- The flags one after the other (qbsp/qbsp.cc:683-705). -/
def chooseVersion (o : Options) : Outcome Options :=
  setVersionIf o.hlbsp.value .hl o >>= fun o =>
  setVersionIf (wantsQ2 o) .q2 o >>= fun o =>
  setVersionIf o.qbism.value .qbism o >>= fun o =>
  setVersionIf o.bsp2.value .bsp2 o >>= fun o =>
  setVersionIf o.bsp2rmq.value .bsp2rmq o >>= fun o =>
  setVersionIf o.version.isNone .q1 o

/-- The format of Hexen II (qbsp/qbsp.cc:709-715). -/
def hexen (v : Ver) : Ver :=
  match v with
  | .bsp2 => .h2bsp2
  | .bsp2rmq => .h2bsp2rmq
  | _ => .h2

/-- `-hexen2`, and Quake if there is no format (qbsp/qbsp.cc:707-720). -/
def applyHexen (o : Options) : Options :=
  if o.hexen2.value then { o with version := o.version.map hexen } else { o with version := some (o.version.getD .q1) }

/-- `if (!x.is_changed()) x.set_value(v, GAME_TARGET)`. -/
def Opt.dflt {α : Type} (o : Opt α) (v : α) : Opt α := if !o.changed then o.set v .gameTarget else o

/-- The side effects of `-q2rtx` (qbsp/qbsp.cc:736-745). -/
def rtxEffects (o : Options) : Options :=
  if o.q2rtx.value then { o with includeskip := o.includeskip.dflt true, software := o.software.dflt false } else o

/-- The side effects of Quake II (qbsp/qbsp.cc:747-766). -/
def q2Effects (o : Options) : Options :=
  if (o.version.map Ver.isQ2).getD false then
    let o := { o with maxedges := o.maxedges.dflt 0 }
    let o := if o.version = some .qbism then { o with software := o.software.dflt false } else o
    let o := if !o.software.value && !o.subdivide.changed then { o with subdivide := o.subdivide.set 496 .gameTarget } else o
    { o with chop := o.chop.dflt true }
  else o

/-- `postinitialize` (qbsp/qbsp.cc:680-766). -/
def postinitialize (o : Options) : Outcome Options :=
  chooseVersion o >>= fun o => .ok (q2Effects (rtxEffects (applyHexen o)))

/-- `reset` (qbsp/qbsp.cc:780-790, include/common/settings.hh:197-201), with the defaults (qbsp/qbsp.cc:453-560). -/
def reset : Options :=
  ⟨⟨false, .default⟩, ⟨false, .default⟩, ⟨false, .default⟩, ⟨false, .default⟩, ⟨false, .default⟩, ⟨false, .default⟩, ⟨false, .default⟩,
   ⟨true, .default⟩, ⟨false, .default⟩, ⟨64, .default⟩, ⟨240, .default⟩, ⟨false, .default⟩, none⟩

end Verif.Target
