import Verif.Tree.Model

/-!
Model of the export of faces, edges and surfedges by qbsp (qbsp/faces.cc:145-283, qbsp/map.cc:169-172,
qbsp/writebsp.cc:325-329), and of the function that the tools read the vertices of a face with
(common/bsputils.cc:99-110).

Simplifications: numbers do not wrap (`static_cast<uint32_t>`, `static_cast<int32_t>`); the texinfo of the face (its
export is modelled in Texinfo.lean), the lightmap shift and the light styles are left out. Contents are an arbitrary type
with the two functions of the game that are used.
-/

namespace Verif.Emit

open Geom Verif.Tree

/-- What `GetEdge` and `EmitEdges` read of the options and the game (qbsp/faces.cc:147-156, 178): `-noedgereuse`,
`-maxedges`, `contentflags_t::is_valid`, `contentflags_t::equals`. -/
structure EmitOpts (C : Type) where
  noreuse : Bool
  maxedges : Nat
  valid : C → Bool
  equals : C → C → Bool

/-- The parts of `face_t` that the export reads (include/qbsp/qbsp.hh:294-314): the plane number, the contents in
front and the vertices of the fragments. -/
structure FaceIn (C : Type) where
  planenum : Nat
  contents : C
  fragments : List (List Nat)

/-- The tree with the faces of each node (`nodedata->facelist`). -/
inductive FTree (C : Type) where
  | leaf
  | node (faces : List (FaceIn C)) (front back : FTree C)

/-- `mface_t`. -/
structure MFace where
  planenum : Nat
  side : Nat
  firstedge : Nat
  numedges : Nat
  deriving DecidableEq

/-- The data that the export writes: the planes, `map.bsp.dedges`, `map.hashedges`, `map.bsp.dsurfedges`,
`map.bsp.dfaces`. -/
structure ESt (K C : Type) where
  tree : St K
  edges : List (Nat × Nat)
  hash : List ((Nat × Nat) × (Nat × C))
  surfedges : List Int
  faces : List MFace

variable {K C : Type} [Field K] [LinearOrder K]

/-- `std::map::find`. -/
def findEdge (h : List ((Nat × Nat) × (Nat × C))) (k : Nat × Nat) : Option (Nat × C) :=
  (h.find? fun e => e.1 = k).map (·.2)

/-- `mapdata_t::add_hash_edge` (qbsp/map.cc:169-172): `std::map::emplace` keeps a present entry. -/
def addEdge (h : List ((Nat × Nat) × (Nat × C))) (k : Nat × Nat) (v : Nat × C) : List ((Nat × Nat) × (Nat × C)) :=
  if (findEdge h k).isSome then h else h ++ [(k, v)]

/-- The search of `GetEdge` (qbsp/faces.cc:150-160): the number of an edge that can be used backwards. -/
def reusable (o : EmitOpts C) (h : List ((Nat × Nat) × (Nat × C))) (v1 v2 : Nat) (c : C) : Option Nat :=
  if o.noreuse then none
  else
    match findEdge h (v2, v1) with
    | some (i, c') => if o.equals c' c then some i else none
    | none => none

/-- `GetEdge` (qbsp/faces.cc:145-172). -/
def getEdge (o : EmitOpts C) (c : C) (v1 v2 : Nat) (s : ESt K C) : Outcome (Int × ESt K C) :=
  if !o.valid c then .error
  else
    match reusable o s.hash v1 v2 c with
    | some i => .ok (-(i : Int), s)
    | none =>
      let i := s.edges.length
      .ok ((i : Int), { s with edges := s.edges ++ [(v1, v2)], hash := addEdge s.hash (v1, v2) (i, c) })

/-- The loop of `EmitEdges` over the pairs of neighbours (qbsp/faces.cc:184-188). -/
def getEdges (o : EmitOpts C) (c : C) : List (Nat × Nat) → ESt K C → Outcome (List Int × ESt K C)
  | [], s => .ok ([], s)
  | (v1, v2) :: l, s => do
    let r ← getEdge o c v1 v2 s
    let rs ← getEdges o c l r.2
    .ok (r.1 :: rs.1, rs.2)

/-- Each vertex with the next one (qbsp/faces.cc:185-186). -/
def neighbours (vs : List Nat) : List (Nat × Nat) := vs.zip (vs.drop 1 ++ vs.take 1)

/-- `EmitEdges` (qbsp/faces.cc:174-189). -/
def emitEdges (o : EmitOpts C) (c : C) (vs : List Nat) (s : ESt K C) : Outcome (List Int × ESt K C) :=
  if o.maxedges ≠ 0 ∧ vs.length > o.maxedges then .error
  else getEdges o c (neighbours vs) s

/-- `EmitFaceFragment` (qbsp/faces.cc:196-233). -/
def emitFragment (rnd : K → K) (planenum : Nat) (vs : List Nat) (es : List Int) (s : ESt K C) : Outcome (ESt K C) :=
  if vs.length < 3 then .ok s
  else do
    let r ← exportPlane rnd (planenum / 2 * 2) s.tree
    let first := s.surfedges.length
    let se := s.surfedges ++ es.take vs.length
    .ok { s with tree := r.2, surfedges := se,
                 faces := s.faces ++ [⟨r.1, planenum % 2, first, se.length - first⟩] }

/-- The loop over the fragments of a face (qbsp/faces.cc:251-254). -/
def emitFragments (o : EmitOpts C) (rnd : K → K) (planenum : Nat) (c : C) :
    List (List Nat) → ESt K C → Outcome (ESt K C)
  | [], s => .ok s
  | vs :: l, s => do
    let r ← emitEdges o c vs s
    let s' ← emitFragment rnd planenum vs r.1 r.2
    emitFragments o rnd planenum c l s'

/-- The loop over the faces of a node (qbsp/faces.cc:249-255). -/
def emitNodeFaces (o : EmitOpts C) (rnd : K → K) : List (FaceIn C) → ESt K C → Outcome (ESt K C)
  | [], s => .ok s
  | f :: l, s => do
    let s' ← emitFragments o rnd f.planenum f.contents f.fragments s
    emitNodeFaces o rnd l s'

/-- `EmitFaces_R` (qbsp/faces.cc:240-261): the pairs `firstface`, `numfaces` of the nodes, each node before its
children, and the data. -/
def emitTree (o : EmitOpts C) (rnd : K → K) : FTree C → ESt K C → Outcome (List (Nat × Nat) × ESt K C)
  | .leaf, s => .ok ([], s)
  | .node faces front back, s => do
    let first := s.faces.length
    let s1 ← emitNodeFaces o rnd faces s
    let r2 ← emitTree o rnd front s1
    let r3 ← emitTree o rnd back r2.2
    .ok ((first, s1.faces.length - first) :: (r2.1 ++ r3.1), r3.2)

/-- `EmitFaces` (qbsp/faces.cc:268-283): the number of the first face, the pairs of the nodes and the data. The
assertion that there are no edges in `hashedges` may fail. -/
def emitFaces (o : EmitOpts C) (rnd : K → K) (t : FTree C) (s : ESt K C) :
    Outcome (Nat × List (Nat × Nat) × ESt K C) :=
  if s.hash ≠ [] then .error
  else do
    let r ← emitTree o rnd t s
    .ok (s.faces.length, r.1, { r.2 with hash := [] })

/-- `BeginBSPFile` (qbsp/writebsp.cc:325-329): the edge 0 is never used. -/
def beginFile (t : St K) : ESt K C := ⟨t, [(0, 0)], [], [], []⟩

/-- `Face_VertexAtIndex` (common/bsputils.cc:99-110); the assertions fail for an index that is no edge of the face. -/
def vertexAt (edges : List (Nat × Nat)) (surfedges : List Int) (f : MFace) (v : Nat) : Outcome Nat :=
  if v < f.numedges then do
    let e ← Outcome.readAt surfedges (f.firstedge + v)
    if e < 0 then do
      let p ← Outcome.readAt edges (-e).toNat
      .ok p.2
    else do
      let p ← Outcome.readAt edges e.toNat
      .ok p.1
  else .error

/-- `Face_Plane` (common/bsputils.cc:128-138). -/
def facePlane (dplanes : List (DPlane K)) (f : MFace) : Outcome (Plane K) :=
  match dplanes[f.planenum]? with
  | none => .error
  | some d => .ok (if f.side ≠ 0 then negPlane d.plane else d.plane)

end Verif.Emit
