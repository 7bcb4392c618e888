import Verif.Common.Outcome
import Verif.Geom.Aabb
import Verif.OnlyEnts.Model

/-!
Model of the loading of the brushes of the world and of rotating entities: the brushes that are merged into the world and the
numbers of area portals (qbsp/brush.cc:867-897, qbsp/map.cc:2989-3021), and the bounds of the brushes of rotating entities
(qbsp/brush.cc:644-674).

Simplifications: arithmetic is exact. Brushes are numbers, and all of them are loaded; those that are left out are the subject of
the model of regions. The faces of area portals, whose contents and texture are set, are left out.
-/

namespace Verif.LoadEnt

open Geom
open OnlyEnts (Str Dict ieq)

/-- `mapentity_t`, as far as it matters: `portal` is `areaportalnum`. -/
structure Ent where
  keys : Dict
  brushes : List Nat
  portal : Nat
  deriving DecidableEq

/-- `"classname"`. -/
def cls (e : Ent) : Str := OnlyEnts.get e.keys OnlyEnts.kClass

/-- `ProcessAreaPortal` (qbsp/map.cc:2989-3021): `count` is `map.numareaportals`, `region` whether there is a region or an
anti-region. -/
def areaPortal (region : Bool) (count : Nat) (e : Ent) : Outcome (Ent × Nat) :=
  if ieq (cls e) "func_areaportal".toList = false then .ok (e, count)
  else if e.brushes.length ≠ 1 then .error
  else if region then .ok (e, count)
  else .ok ({ e with portal := count + 1, keys := OnlyEnts.set e.keys "style".toList (Nat.toDigits 10 (count + 1)) }, count + 1)

/-- The loop over the other entities (qbsp/brush.cc:888-896): the entities, the number of area portals and the brushes. -/
def others (region : Bool) (count : Nat) : List Ent → Outcome (List Ent × Nat × List Nat)
  | [] => .ok ([], count, [])
  | e :: t => areaPortal region count e >>= fun r => others region r.2 t >>= fun o =>
    .ok (r.1 :: o.1, o.2.1, (if OnlyEnts.merged (cls r.1) then r.1.brushes else []) ++ o.2.2)

/-- `Brush_LoadEntity` of the world (qbsp/brush.cc:867-897): the first entity is the world. -/
def loadWorld (region : Bool) (count : Nat) : List Ent → Outcome (List Ent × Nat × List Nat)
  | [] => .error
  | w :: t => others region count t >>= fun o => .ok (w :: o.1, o.2.1, w.brushes ++ o.2.2)

variable {K : Type} [Field K] [LinearOrder K]

/-- The bounds of a brush of a rotating entity (qbsp/brush.cc:660-674). -/
def rotBounds (b : Box K 3) : Box K 3 :=
  let lo := min (min (min (b.mins 0) (b.mins 1)) (b.mins 2)) (min (min (b.maxs 0) (b.maxs 1)) (b.maxs 2))
  let hi := max (max (max (b.mins 0) (b.mins 1)) (b.mins 2)) (max (max (b.maxs 0) (b.maxs 1)) (b.maxs 2))
  let delta := max |hi| |lo|
  Box.mk' (fun _ => -delta) (fun _ => delta)

/-- Whether they are used (qbsp/brush.cc:656-658): `hipnotic` is the kind of rotation. -/
def shouldExpand (origin : Pt K 3) (hipnotic : Bool) (hull : Option Nat) (hexen : Bool) : Bool :=
  !(decide (origin 0 = 0) && decide (origin 1 = 0) && decide (origin 2 = 0)) && hipnotic && hull.isSome && !hexen

end Verif.LoadEnt
