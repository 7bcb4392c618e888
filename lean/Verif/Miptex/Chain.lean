import Verif.Common.Outcome
import Verif.Cmdlib.Model

/-!
Model of the list of textures that qbsp collects for Quake 2, with the animations of the .wal files (qbsp/map.cc:429-433,
457-523).

Simplification: `map.load_image_meta` is a function of the name (it keeps what it has once loaded).
-/

namespace Verif.Miptex.Chain

open Verif.Cmdlib (Str cstr iequalC)

/-- `img::texture_meta` (include/common/imglib.hh:47-64), the members used here. -/
structure Meta where
  name : Str
  contents : Int
  flags : Int
  value : Int
  animation : Str
  deriving DecidableEq

/-- `extended_texinfo_t` (include/qbsp/qbsp.hh:71-79). -/
structure Info where
  contents : Int
  flags : Int
  value : Int
  animation : Str
  deriving DecidableEq

/-- `maptexdata_t` (include/qbsp/map.hh:149-156). -/
structure Tex where
  name : Str
  flags : Int
  value : Int
  animation : Str
  next : Option Nat
  deriving DecidableEq

/-- The comparison (qbsp/map.cc:475-476). -/
def matches' (name : Str) (x : Info) (t : Tex) : Bool :=
  iequalC name t.name && t.flags == x.flags && t.value == x.value && t.animation == x.animation

/-- Looking for a texture and adding it if it is not there (qbsp/map.cc:472-483): the number, the list, and whether it is new.
This is all of `FindMiptex` if it is not `recursive`. -/
def place (name : Str) (x : Info) (tbl : List Tex) : Nat × List Tex × Bool :=
  match tbl.findIdx? (matches' name x) with
  | some i => (i, tbl, false)
  | none => (tbl.length, tbl ++ [⟨name, x.flags, x.value, x.animation, none⟩], true)

/-- `map.miptex[i].animation_miptex = j` (qbsp/map.cc:508, 518). -/
def link (tbl : List Tex) (i j : Nat) : List Tex := tbl.modify i fun t => { t with next := some j }

/-- The loop over the frames (qbsp/map.cc:491-515): the last texture and the list. The first argument bounds the number of
rounds; `none`: it was too small. -/
def follow (load : Str → Option Meta) (name : Str) (x : Info) : Nat → Meta → Nat → List Tex → Option (Nat × List Tex)
  | 0, _, _, _ => none
  | fuel + 1, wal, last, tbl =>
    if wal.animation = [] then some (last, tbl)
    else
      match load (cstr wal.animation) with
      | none => some (last, tbl)
      | some w =>
        let r := place (cstr w.name) { x with animation := w.animation } tbl
        let t := link r.2.1 last r.1
        if iequalC w.name name = true ∨ last = r.1 then some (last, t) else follow load name x fuel w r.1 t

/-- What the texture file says, if the map says nothing (qbsp/map.cc:459-470). -/
def infoOf (load : Str → Option Meta) (name : Str) (info : Option Info) (internal : Bool) : Info :=
  match info with
  | some x => x
  | none =>
    match load name with
    | some w => if internal then ⟨0, 0, 0, []⟩ else ⟨w.contents, w.flags, w.value, w.animation⟩
    | none => ⟨0, 0, 0, []⟩

/-- `FindMiptex` for Quake 2, `recursive` (qbsp/map.cc:429-433, 457-523). `.ub`: the animation of a texture that could not
be loaded is read. -/
def findMiptex (load : Str → Option Meta) (fuel : Nat) (request : Str) (info : Option Info) (internal : Bool)
    (tbl : List Tex) : Option (Outcome (Nat × List Tex)) :=
  let name := cstr request
  let x := infoOf load name info internal
  let r := place name x tbl
  if r.2.2 = true ∧ x.animation ≠ [] then
    match load name with
    | none => some .ub
    | some w =>
      if iequalC name w.animation then some (.ok (r.1, r.2.1))
      else
        match follow load name x fuel w r.1 r.2.1 with
        | none => none
        | some (last, t) => some (.ok (r.1, link t last r.1))
  else some (.ok (r.1, r.2.1))

/-- How a face asks (qbsp/map.cc:1783-1794, 1860): the animation is that of the texture file, contents, flags and value are
those of the map if it has any. (Changes to contents and flags in between do not matter here.) -/
def faceInfo (load : Str → Option Meta) (name : Str) (given : Option Info) : Info :=
  match load name, given with
  | some w, none => ⟨w.contents, w.flags, w.value, w.animation⟩
  | some w, some x => { x with animation := w.animation }
  | none, none => ⟨0, 0, 0, []⟩
  | none, some x => x

/-- The texture of a face (qbsp/map.cc:1783-1860). -/
def faceTexture (load : Str → Option Meta) (fuel : Nat) (request : Str) (given : Option Info) (tbl : List Tex) :
    Option (Outcome (Nat × List Tex)) :=
  findMiptex load fuel request (some (faceInfo load (cstr request) given)) false tbl

end Verif.Miptex.Chain
