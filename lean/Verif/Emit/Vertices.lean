import Verif.Tree.Planes

/-!
Model of the export of vertices (qbsp/faces.cc:82-127, qbsp/map.cc:149-167): the list of vertices is shared by all faces
of all models, and a point is welded to a vertex that is close.

Simplifications: numbers are those of an ordered field; `rnd` is the conversion to `float`; the omitted faces
(`ShouldOmitFace`) are left out of the lists.
-/

namespace Verif.Emit

open Geom

variable {K : Type} [Field K] [LinearOrder K]

/-- `map.hashverts` and `map.bsp.dvertexes`. -/
structure VertDb (K : Type) where
  hash : List (Vec K × Nat)
  verts : List (Vec K)

/-- No vertices. -/
def VertDb.empty : VertDb K := ⟨[], []⟩

/-- The box that `find_emitted_hash_vector` searches (qbsp/map.cc:151-155); `eps` is `POINT_EQUAL_EPSILON * 0.5`. -/
def inVertBox (eps : K) (p q : Vec K) : Prop :=
  p.x - eps ≤ q.x ∧ q.x ≤ p.x + eps ∧ p.y - eps ≤ q.y ∧ q.y ≤ p.y + eps ∧ p.z - eps ≤ q.z ∧ q.z ≤ p.z + eps

instance (eps : K) (p q : Vec K) : Decidable (inVertBox eps p q) := by
  unfold inVertBox; infer_instance

/-- `mapdata_t::find_emitted_hash_vector` (qbsp/map.cc:149-161). `pick`: which of the entries in the box the spatial map
yields first. -/
def findVert (eps : K) (pick : List Nat → Nat) (db : VertDb K) (p : Vec K) : Option Nat :=
  let hits := (db.hash.filter fun e => inVertBox eps p e.1).map (·.2)
  hits[pick hits]?

/-- `spatial_map::emplace`, called by `mapdata_t::add_hash_vector` (qbsp/map.cc:164-167): an entry is added unless the
key is present. -/
def emplaceVert [DecidableEq K] (h : List (Vec K × Nat)) (k : Vec K) (v : Nat) : List (Vec K × Nat) :=
  if h.any (fun e => e.1 = k) then h else h ++ [(k, v)]

/-- The conversion of a point to `float` (qbsp/faces.cc:93). -/
def rndVec (rnd : K → K) (p : Vec K) : Vec K := ⟨rnd p.x, rnd p.y, rnd p.z⟩

/-- `EmitVertex` (qbsp/faces.cc:82-94). -/
def emitVertex (eps : K) (rnd : K → K) (pick : List Nat → Nat) (db : VertDb K) (p : Vec K) : Nat × VertDb K :=
  match findVert eps pick db p with
  | some n => (n, db)
  | none => (db.verts.length, ⟨emplaceVert db.hash p db.verts.length, db.verts ++ [rndVec rnd p]⟩)

/-- `EmitFaceVertices` (qbsp/faces.cc:97-108). -/
def emitWinding (eps : K) (rnd : K → K) (pick : List Nat → Nat) : VertDb K → List (Vec K) → List Nat × VertDb K
  | db, [] => ([], db)
  | db, p :: w =>
    let r := emitVertex eps rnd pick db p
    let rest := emitWinding eps rnd pick r.2 w
    (r.1 :: rest.1, rest.2)

/-- `EmitVertices_R` for all models (qbsp/faces.cc:110-127): the faces one after the other. -/
def emitWindings (eps : K) (rnd : K → K) (pick : List Nat → Nat) : VertDb K → List (List (Vec K)) →
    List (List Nat) × VertDb K
  | db, [] => ([], db)
  | db, w :: ws =>
    let r := emitWinding eps rnd pick db w
    let rest := emitWindings eps rnd pick r.2 ws
    (r.1 :: rest.1, rest.2)

end Verif.Emit
