import Verif.NodePortal.Model

/-!
Model of `-debugexpand`: its values (qbsp/qbsp.cc:199-227), the hull that is taken (qbsp/map.cc:3369-3388) and the map that is written
(qbsp/map.cc:3083-3131).

Simplifications: exact arithmetic; the inverse of a length and the cast of a number to a byte are given functions (the cast of a
number out of range is undefined); the file is the list of its brushes with their faces, each with three points and the name of the
texture, not their text.
-/

namespace Verif.DebugExpand

open Verif.Geom Verif.NodePortal

variable {K : Type} [Field K] [LinearOrder K]

/-- A box: `aabb3d`. -/
structure Hull (K : Type) where
  lo : Vec K
  hi : Vec K
  deriving DecidableEq

/-- The value of the option (include/qbsp/qbsp.hh:150): the number of a hull, or a box. -/
inductive Value (K : Type) where
  | hull (i : Nat)
  | box (b : Hull K)
  deriving DecidableEq

/-- The loop over the numbers (qbsp/qbsp.cc:205-213) from number `n` on, for the words that follow, each of which is a number or none
(`std::stod` throws): the numbers that are read, and the words that are left. -/
def readNumbers : Nat → List (Option K) → List K × List (Option K)
  | n + 1, some x :: ws => let r := readNumbers n ws; (x :: r.1, r.2)
  | _, ws => ([], ws)

/-- `setting_debugexpand::parse` (qbsp/qbsp.cc:199-227): `none` for a failure; the words that are left. -/
def parse (toByte : K → Outcome Nat) (ws : List (Option K)) : Outcome (Option (Value K) × List (Option K)) :=
  match readNumbers 6 ws with
  | ([a, b, c, d, e, f], r) => .ok (some (.box ⟨⟨a, b, c⟩, ⟨d, e, f⟩⟩), r)
  | ([a], r) => toByte a >>= fun i => .ok (some (.hull i), r)
  | (_, r) => .ok (none, r)

/-- The part of the corner of the hull on one axis (qbsp/map.cc:3099-3105). -/
def cornerPart (n lo hi : K) : K := if n > 0 then hi else if n < 0 then lo else 0

/-- The corner of the hull that is farthest along the normal (qbsp/map.cc:3097-3105). -/
def corner (n : Vec K) (h : Hull K) : Vec K :=
  ⟨cornerPart n.x h.lo.x h.hi.x, cornerPart n.y h.lo.y h.hi.y, cornerPart n.z h.lo.z h.hi.z⟩

/-- The plane of a face, moved (qbsp/map.cc:3098-3106). -/
def grown (pl : Plane K) (h : Hull K) : Plane K := ⟨pl.normal, pl.dist + dot (corner pl.normal h) pl.normal⟩

/-- A face in a map: three points and a texture. -/
structure Face (K Tex : Type) where
  p0 : Vec K
  p1 : Vec K
  p2 : Vec K
  tex : Tex

variable {Tex : Type}

/-- The line of a face (qbsp/map.cc:3097-3122). -/
def writeFace (inv : Vec K → K) (extent : K) (h : Hull K) (f : Plane K × Tex) : Outcome (Face K Tex) :=
  match fromPlane inv (grown f.1 h) extent with
  | w0 :: w1 :: w2 :: _ => .ok ⟨w0, w1, w2, f.2⟩
  | _ => .ub

/-- The loop over the faces of a brush (qbsp/map.cc:3095-3123). -/
def writeBrush (inv : Vec K → K) (extent : K) (h : Hull K) : List (Plane K × Tex) → Outcome (List (Face K Tex))
  | [] => .ok []
  | f :: fs => writeFace inv extent h f >>= fun a => writeBrush inv extent h fs >>= fun as => .ok (a :: as)

/-- The loop over the brushes (qbsp/map.cc:3093-3126). -/
def writeBrushes (inv : Vec K → K) (extent : K) (h : Hull K) : List (List (Plane K × Tex)) → Outcome (List (List (Face K Tex)))
  | [] => .ok []
  | b :: bs => writeBrush inv extent h b >>= fun a => writeBrushes inv extent h bs >>= fun as => .ok (a :: as)

/-- The hull that is taken (qbsp/map.cc:3370-3382); `hulls`: those of the game. -/
def chooseHull (hulls : List (Hull K)) : Value K → Outcome (Hull K)
  | .hull i => match hulls[i]? with
    | none => .error
    | some h => .ok h
  | .box b => .ok b

/-- The end of `ProcessMapBrushes` (qbsp/map.cc:3369-3388): the file, if the option is given. -/
def expandedMap (inv : Vec K → K) (extent : K) (hulls : List (Hull K)) (option : Option (Value K))
    (brushes : List (List (Plane K × Tex))) : Outcome (Option (List (List (Face K Tex)))) :=
  match option with
  | none => .ok none
  | some v => chooseHull hulls v >>= fun h => writeBrushes inv extent h brushes >>= fun bs => .ok (some bs)

end Verif.DebugExpand
