import Verif.OnlyEnts.Model
import Verif.Contents.Model
import Mathlib.Data.Rat.Defs
import Mathlib.Algebra.Order.Ring.Rat

/-!
Model of the list of brushes that `qbsp -wrbrushes` writes for engines (qbsp/qbsp.cc:1339-1466), for Quake and like games.

Simplifications: numbers are rational, so the rounding to `float` is left out. The bytes of the lump are modelled in `BspFile.Bspx`.
-/

namespace Verif.BrushList

open OnlyEnts (Str Dict find get ieq removed)
open Contents Contents.Q1

/-- A plane with its normal (`qplane3d`). -/
structure Plane where
  n : Fin 3 → ℚ
  dist : ℚ

/-- `qbsp_plane_t::normalize` without flipping (qbsp/qbsp.cc:359-379), for one axis. -/
def normalizeAxis (p : Plane) (i : Fin 3) : Option Plane :=
  if p.n i = 1 ∨ p.n i = -1 then some ⟨fun j => if j = i then p.n i else 0, p.dist⟩ else none

/-- `qbsp_plane_t::normalize` (qbsp/qbsp.cc:359-405): the plane, and whether its type is that of an axis. -/
def normalize (p : Plane) : Plane × Bool :=
  match normalizeAxis p 0 with
  | some q => (q, true)
  | none => match normalizeAxis p 1 with
    | some q => (q, true)
    | none => match normalizeAxis p 2 with
      | some q => (q, true)
      | none => (p, false)

/-- A brush of the map, after the brushes were processed: its planes were normalized (qbsp/map.hh: `mapbrush_t`). -/
structure Brush where
  contents : Contents
  mins : Fin 3 → ℚ
  maxs : Fin 3 → ℚ
  planes : List Plane

structure Entity where
  keys : Dict
  brushes : List Brush

/-- `bspxbrushes_perbrush` (include/common/bspxfile.hh:58-68). -/
structure Listed where
  mins : Fin 3 → ℚ
  maxs : Fin 3 → ℚ
  contents : Int
  faces : List Plane

/-- `BSPXBRUSHES_CONTENTS_CLIP` (include/common/bspfile_q1.hh:108). -/
def clip : Int := -8

/-- The contents in `BSPX_Brushes_AddModel` (qbsp/qbsp.cc:1354-1384). -/
def listContents (c : Contents) : Outcome Int :=
  toNative c >>= fun native =>
    if native = -1 ∨ native = -2 ∨ native = -3 ∨ native = -4 ∨ native = -5 ∨ native = -6 then
      if isClip c then .ok clip else .ok native
    else if isClip c then .ok clip
    else .ok (-2)

/-- The same for Quake II (`contents_are_clip` there: common/bspfile.cc:1067-1071), whose contents are bits of an `int`. -/
def listContentsQ2 (c : Contents) : Outcome Int :=
  Q2.toNative c >>= fun native =>
    let native := native.toInt
    if native = -1 ∨ native = -2 ∨ native = -3 ∨ native = -4 ∨ native = -5 ∨ native = -6 then
      if tst c (PLAYERCLIP ||| MONSTERCLIP) then .ok clip else .ok native
    else if tst c (PLAYERCLIP ||| MONSTERCLIP) then .ok clip
    else .ok (-2)

/-- One brush in `BSPX_Brushes_AddModel` (qbsp/qbsp.cc:1349-1395). -/
def listBrush (b : Brush) : Outcome Listed :=
  listContents b.contents >>= fun c =>
    .ok ⟨b.mins, b.maxs, c, (b.planes.filter fun p => !(normalize p).2).map fun p => (normalize p).1⟩

def listBrushes : List Brush → Outcome (List Listed)
  | [] => .ok []
  | b :: t => listBrush b >>= fun x => listBrushes t >>= fun y => .ok (x :: y)

/-- Decimal digits at the beginning of a text. -/
def digits : Str → Nat → Bool → Option Nat
  | c :: t, acc, seen => if c.isDigit then digits t (acc * 10 + (c.toNat - 48)) true else if seen then some acc else none
  | [], acc, seen => if seen then some acc else none

/-- `std::stoi` on 32 bits; `none` is an exception. -/
def stoi (s : Str) : Option Int :=
  let s := s.dropWhile fun c => c = ' ' || (9 ≤ c.toNat && c.toNat ≤ 13)
  let r : Option Int := match s with
    | '-' :: t => (digits t 0 false).map fun n => -(n : Int)
    | '+' :: t => (digits t 0 false).map fun n => (n : Int)
    | t => (digits t 0 false).map fun n => (n : Int)
  r.filter fun n => -2147483648 ≤ n && n ≤ 2147483647

/-- The number of the model of an entity that is not the world (qbsp/qbsp.cc:1419-1423): `ok none` if it has none. -/
def modelOf (e : Entity) : Outcome (Option Int) :=
  match get e.keys "model".toList with
  | '*' :: t => match stoi t with
    | some n => .ok (some n)
    | none => .error
  | _ => .ok none

/-- The brushes that are added to the world (qbsp/qbsp.cc:1434-1454). -/
def fromGroups (others : List Entity) : List Brush :=
  (others.filter fun e => removed (get e.keys "classname".toList)
    && !ieq (get e.keys "classname".toList) "func_detail_illusionary".toList
    && !ieq (get e.keys "classname".toList) "func_illusionary_visblocker".toList).flatMap (·.brushes)

/-- One model (qbsp/qbsp.cc:1426-1458). -/
def addModel (others : List Entity) (e : Entity) (n : Int) (rest : List (Int × List Listed)) : Outcome (List (Int × List Listed)) :=
  let brushes := e.brushes ++ if n = 0 then fromGroups others else []
  if brushes = [] then .ok rest else listBrushes brushes >>= fun l => .ok ((n, l) :: rest)

/-- The loop over the entities that are not the world (qbsp/qbsp.cc:1408-1459). That the class is `misc_external_map` was asserted away
before. -/
def fromEntities (others : List Entity) : List Entity → Outcome (List (Int × List Listed))
  | [] => .ok []
  | e :: t =>
    if removed (get e.keys "classname".toList) = true then fromEntities others t
    else modelOf e >>= fun m =>
      match m with
      | none => fromEntities others t
      | some n => fromEntities others t >>= fun rest => addModel others e n rest

/-- `BSPX_CreateBrushList` (qbsp/qbsp.cc:1401-1466). The world is the first entity; its class is none of those whose brushes are added to
the world. -/
def brushList : List Entity → Outcome (List (Int × List Listed))
  | [] => .ok []
  | w :: t => fromEntities t t >>= fun rest => addModel t w 0 rest

end Verif.BrushList
