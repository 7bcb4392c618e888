import Verif.Common.Outcome
import Verif.Geom.Model
import Verif.Geom.Aabb

/-!
Model of regions, with which only a part of a map is compiled: the walls that are made of a region (qbsp/map.cc:2637-2688), the
brushes that are loaded (qbsp/brush.cc:712-739) and the entities that are removed (qbsp/map.cc:3339-3367).

Simplifications: arithmetic is exact, and the table of planes is left out: a plane is its normal and its distance. The bounds of
a brush are given.
-/

namespace Verif.Region

open Geom

variable {K : Type} [Field K] [LinearOrder K]

def neg (v : Vec K) : Vec K := ⟨-v.x, -v.y, -v.z⟩

/-- One side of the wall on the side `w` (qbsp/map.cc:2646-2683). -/
def wallSide (w s : Plane K) : Plane K :=
  if s = w then ⟨s.normal, s.dist + 16⟩ else if s.normal = neg w.normal then ⟨neg w.normal, -w.dist⟩ else s

/-- `new_brush` (qbsp/map.cc:2640-2683). -/
def wall (brush : List (Plane K)) (w : Plane K) : List (Plane K) := brush.map (wallSide w)

/-- The brushes that are added to the world (qbsp/map.cc:2637-2688). -/
def walls (brush : List (Plane K)) : List (List (Plane K)) := brush.map (wall brush)

/-- The loop over the anti-regions (qbsp/brush.cc:725-732): whether the code behind it is reached. `continue` is that of this
loop. -/
def antiLoop (b : Box K 3) : List (Box K 3) → Bool
  | [] => true
  | r :: rs => if !r.disjoint b 0 then antiLoop b rs else antiLoop b rs

/-- What is known of the map and of the entity whose brushes are loaded. -/
structure Load (K : Type) where
  region : Option (Box K 3)
  antiregions : List (Box K 3)
  /-- The world, or an entity whose brushes become part of it (qbsp/brush.cc:715). -/
  world : Bool
  superDetail : Bool
  hull : Option Nat

/-- Whether a brush is loaded (qbsp/brush.cc:712-739). -/
def loaded (l : Load K) (b : Box K 3) : Bool :=
  if l.world && l.region.any (fun r => r.disjoint b 0) then false
  else if l.world && !antiLoop b l.antiregions then false
  else if l.hull.getD 0 = 0 && l.superDetail then false
  else true

/-- An entity: the number of its brushes and `entity.origin`. -/
structure Ent (K : Type) where
  name : Nat
  brushes : Nat
  origin : Pt K 3

/-- The inner loop (qbsp/map.cc:3353-3360): whether the entity is to be erased. `cur` is what the reference `entity` refers to;
none if it is the end of the list, where there is no entity. -/
def antiHit (cur : Option (Ent K)) : List (Box K 3) → Outcome Bool
  | [] => .ok false
  | r :: rs =>
    match cur with
    | none => .ub
    | some e => if r.containsPoint e.origin then .ok true else antiHit cur rs

/-- The loop (qbsp/map.cc:3342-3366). The reference `entity` stays where it is when the iterator's entity is erased and the
others move down. The first argument bounds the number of steps; the length of the list is enough. -/
def removeEnts (region : Option (Box K 3)) (anti : List (Box K 3)) : Nat → List (Ent K) → Outcome (List (Ent K))
  | 0, _ => .ok []
  | _ + 1, [] => .ok []
  | k + 1, e :: rest =>
    if e.brushes = 0 then
      if region.any (fun r => !r.containsPoint e.origin) then
        antiHit rest.head? anti >>= fun hit => removeEnts region anti k (if hit then rest.tail else rest)
      else antiHit (some e) anti >>= fun hit =>
        if hit then removeEnts region anti k rest
        else removeEnts region anti k rest >>= fun l => .ok (e :: l)
    else removeEnts region anti k rest >>= fun l => .ok (e :: l)

/-- The loop with its condition (qbsp/map.cc:3340). -/
def regionEnts (region : Option (Box K 3)) (anti : List (Box K 3)) (ents : List (Ent K)) : Outcome (List (Ent K)) :=
  if region.isSome || !anti.isEmpty then removeEnts region anti ents.length ents else .ok ents

end Verif.Region
