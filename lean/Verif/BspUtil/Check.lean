import Verif.Common.Outcome
import Verif.Geom.Model
import Mathlib.Data.List.Dedup
import Mathlib.Algebra.Order.Group.Unbundled.Int

/-!
Model of `bsputil --check` (bsputil/bsputil.cc:149-452).

Simplifications: a warning is a constructor with the numbers that identify what it is about. The lumps are lists of what the check
reads. Exact arithmetic.
-/

namespace Verif.BspUtil

open Geom

/-- `mface_t` (include/common/bspfile_generic.hh:241-257). -/
structure Face where
  planenum : Int
  side : Bool
  firstedge : Int
  numedges : Int
  texinfo : Int
  styles : List Nat
  lightofs : Int
  deriving DecidableEq

/-- `mleaf_t` (include/common/bspfile_generic.hh:299-318). -/
structure Leaf where
  visofs : Int
  firstmark : Nat
  nummark : Nat
  deriving DecidableEq

/-- `bsp2_dnode_t` and `bsp2_dclipnode_t` (include/common/bspfile_generic.hh:215-227, 264-273). -/
structure Node where
  planenum : Int
  c0 : Int
  c1 : Int
  deriving DecidableEq

/-- What is read of a map: lumps, sizes of lumps, and the head nodes of the models. -/
structure Bsp (K : Type) where
  faces : List Face
  texinfos : Nat
  planes : List (Plane K)
  lightdata : Nat
  surfedges : List Int
  edges : List (Nat × Nat)
  vertexes : List (Vec K)
  marks : List Nat
  leafs : List Leaf
  visbits : Nat
  nodes : List Node
  clipnodes : List Node
  heads : List Int

/-- The warnings; `i` is the number of a face, edge and so on, `j` of the vertex of an edge or the child of a node. -/
inductive W where
  | texNeg (i : Nat)
  | texOut (i : Nat)
  | planeNeg (i : Nat)
  | planeOut (i : Nat)
  | lightNeg (i : Nat)
  | lightOut (i : Nat)
  | edgeNeg (i : Nat)
  | fewEdges (i : Nat)
  | edgesOut (i : Nat)
  | vertexOut (i : Nat) (j : Fin 2)
  | surfZero (i : Nat)
  | surfOut (i : Nat)
  | markOut (i : Nat)
  | leafMarks (i : Nat)
  | visNeg (i : Nat)
  | visOut (i : Nat)
  | childNode (i : Nat) (j : Fin 2)
  | childLeaf (i : Nat) (j : Fin 2)
  | sameNode (i : Nat)
  | childClip (i : Nat) (j : Fin 2)
  | contents (i : Nat) (j : Fin 2)
  | sameClip (i : Nat)
  | unTexinfos (n : Nat)
  | unPlanes (n : Nat)
  | unVertexes (n : Nat)
  deriving DecidableEq

/-- A signed number where an unsigned one of 64 bits is compared with it: C++ converts it. -/
def toSize (x : Int) : Int := if x < 0 then x + 2 ^ 64 else x

/-- A warning if the condition is met. -/
def warn (c : Prop) [Decidable c] (w : W) : List W := if c then [w] else []

/-- What `f` gives for each element, with its number, in order. -/
def each {α β : Type} (f : Nat → α → List β) (i : Nat) : List α → List β
  | [] => []
  | a :: as => f i a ++ each f (i + 1) as

/-- `int32_t` arithmetic that does not overflow. -/
def fits (x : Int) : Prop := -2 ^ 31 ≤ x ∧ x < 2 ^ 31

instance (x : Int) : Decidable (fits x) := inferInstanceAs (Decidable (_ ∧ _))

variable {K : Type}

/-- The checks of a face (bsputil/bsputil.cc:255-285). -/
def checkFace (b : Bsp K) (i : Nat) (f : Face) : List W :=
  warn (f.texinfo < 0) (.texNeg i) ++
  warn (toSize f.texinfo ≥ b.texinfos) (.texOut i) ++
  warn (f.planenum < 0) (.planeNeg i) ++
  warn (toSize f.planenum ≥ b.planes.length) (.planeOut i) ++
  warn (f.lightofs < -1) (.lightNeg i) ++
  warn (toSize f.lightofs ≥ b.lightdata) (.lightOut i) ++
  warn (f.firstedge < 0) (.edgeNeg i) ++
  warn (f.numedges < 3) (.fewEdges i) ++
  warn (toSize (f.firstedge + f.numedges) > b.surfedges.length) (.edgesOut i)

/-- The checks of an edge (bsputil/bsputil.cc:294-304). -/
def checkEdge (b : Bsp K) (i : Nat) (e : Nat × Nat) : List W :=
  warn (e.1 > b.vertexes.length) (.vertexOut i 0) ++ warn (e.2 > b.vertexes.length) (.vertexOut i 1)

/-- The checks of a surfedge (bsputil/bsputil.cc:308-314). -/
def checkSurf (b : Bsp K) (i : Nat) (e : Int) : List W :=
  warn (e = 0) (.surfZero i) ++ warn (|e| ≥ b.edges.length) (.surfOut i)

/-- The check of a marksurface (bsputil/bsputil.cc:317-321). -/
def checkMark (b : Bsp K) (i : Nat) (m : Nat) : List W := warn (m ≥ b.faces.length) (.markOut i)

/-- The checks of a leaf (bsputil/bsputil.cc:324-337); the sum is of 32 bits. -/
def checkLeaf (b : Bsp K) (i : Nat) (l : Leaf) : List W :=
  warn ((l.firstmark + l.nummark) % 2 ^ 32 > b.marks.length) (.leafMarks i) ++
  warn (l.visofs < -1) (.visNeg i) ++
  warn (toSize l.visofs ≥ b.visbits) (.visOut i)

/-- The checks of a child of a node (bsputil/bsputil.cc:344-353). -/
def checkChild (b : Bsp K) (i : Nat) (j : Fin 2) (c : Int) : List W :=
  warn (c ≥ 0 ∧ toSize c ≥ b.nodes.length) (.childNode i j) ++ warn (c < 0 ∧ toSize (-c - 1) ≥ b.leafs.length) (.childLeaf i j)

/-- The checks of a node (bsputil/bsputil.cc:340-360). -/
def checkNode (b : Bsp K) (i : Nat) (n : Node) : List W :=
  checkChild b i 0 n.c0 ++ checkChild b i 1 n.c1 ++ warn (n.c0 = n.c1) (.sameNode i)

/-- The checks of a child of a clip node (bsputil/bsputil.cc:367-375); `CONTENTS_MIN` is -6. -/
def checkClipChild (b : Bsp K) (i : Nat) (j : Fin 2) (c : Int) : List W :=
  warn (c ≥ 0 ∧ toSize c ≥ b.clipnodes.length) (.childClip i j) ++ warn (c < 0 ∧ c < -6) (.contents i j)

/-- The checks of a clip node (bsputil/bsputil.cc:364-382). -/
def checkClip (b : Bsp K) (i : Nat) (n : Node) : List W :=
  checkClipChild b i 0 n.c0 ++ checkClipChild b i 1 n.c1 ++ warn (n.c0 = n.c1) (.sameClip i)

/-- The number of the first `n` numbers that are not referenced. -/
def unreferenced (n : Nat) (refs : List Int) : Nat := ((List.range n).filter fun (i : Nat) => decide ((i : Int) ∉ refs)).length

/-- The checks for unreferenced texinfos, planes and vertices (bsputil/bsputil.cc:386-420). -/
def checkUnused (b : Bsp K) : List W :=
  let t := unreferenced b.texinfos (b.faces.map (·.texinfo))
  let p := unreferenced b.planes.length (b.faces.map (·.planenum) ++ b.nodes.map (·.planenum) ++ b.clipnodes.map (·.planenum))
  let v := unreferenced b.vertexes.length (b.edges.flatMap fun e => [(e.1 : Int), (e.2 : Int)])
  warn (t ≠ 0) (.unTexinfos t) ++ warn (p ≠ 0) (.unPlanes p) ++ warn (v ≠ 0) (.unVertexes v)

/-- All warnings, in order (bsputil/bsputil.cc:250-420). -/
def warnings (b : Bsp K) : List W :=
  each (checkFace b) 0 b.faces ++ each (checkEdge b) 0 b.edges ++ each (checkSurf b) 0 b.surfedges ++ each (checkMark b) 0 b.marks ++
  each (checkLeaf b) 0 b.leafs ++ each (checkNode b) 0 b.nodes ++ each (checkClip b) 0 b.clipnodes ++ checkUnused b

/-- The arithmetic of the checks that overflows on `int32_t`: sums of edges, absolute values and negations. -/
def noOverflow (b : Bsp K) : Prop :=
  (∀ f ∈ b.faces, fits (f.firstedge + f.numedges)) ∧ (∀ e ∈ b.surfedges, fits (-e)) ∧ ∀ n ∈ b.nodes, fits (-n.c0) ∧ fits (-n.c1)

instance (b : Bsp K) : Decidable (noOverflow b) := inferInstanceAs (Decidable (_ ∧ _ ∧ _))

/-- `Node_Height` (bsputil/bsputil.cc:176-192). Without a node of this number, memory after the array is read. `fuel`: calls on the
stack; no walk down a tree needs more than there are nodes, and with 0 the recursion does not end. -/
def height (nodes : List Node) : Nat → Int → Outcome Nat
  | 0, _ => .ub
  | fuel + 1, n =>
    match nodes[n.toNat]? with
    | none => .ub
    | some d =>
      (if d.c0 ≥ 0 then height nodes fuel d.c0 else .ok 0) >>= fun h0 =>
      (if d.c1 ≥ 0 then height nodes fuel d.c1 else .ok 0) >>= fun h1 =>
      .ok (max h0 h1 + 1)

/-- The children of a node that are nodes. -/
def below (nodes : List Node) (n : Int) : List Int :=
  match nodes[n.toNat]? with
  | none => []
  | some d => [d.c0, d.c1].filter (· ≥ 0)

/-- The walk that prints heights (bsputil/bsputil.cc:209-236): numbers and levels of the nodes whose heights are printed. -/
def visit (nodes : List Node) : Nat → List (Int × Nat) → List (Int × Nat)
  | 0, _ => []
  | _, [] => []
  | fuel + 1, (n, l) :: q => (n, l) :: visit nodes fuel (q ++ if l < 3 then (below nodes n).map (·, l + 1) else [])

/-- `PrintNodeHeights` (bsputil/bsputil.cc:194-238): pairs of a level and a height. All heights are known before. The walk prints
at most 1 + 2 + 4 + 8 nodes. -/
def heights (b : Bsp K) : Outcome (List (Nat × Nat)) :=
  match b.heads[0]? with
  | none => .ub
  | some h =>
    if h < 0 then .ub
    else do
      let _ ← height b.nodes (b.nodes.length + 1) h
      (visit b.nodes 16 [(h, 0)]).foldr (fun nl acc => do
        let x ← height b.nodes (b.nodes.length + 1) nl.1
        let r ← acc
        .ok ((nl.2, x) :: r)) (.ok [])

/-- What `CheckBSPFile` prints (bsputil/bsputil.cc:240-452): warnings, heights, the number of different offsets of visibility data, and the
light styles in order. -/
structure Report where
  ws : List W
  hs : List (Nat × Nat)
  visofs : Nat
  styles : List Nat
  deriving DecidableEq

/-- `CheckBSPFile` (bsputil/bsputil.cc:240-452). -/
def check (b : Bsp K) : Outcome Report :=
  if ¬ noOverflow b then .ub
  else do
    let hs ← heights b
    .ok ⟨warnings b, hs, ((b.leafs.map (·.visofs)).filter (· ≥ 0)).dedup.length,
      (List.range 256).filter fun s => decide (∃ f ∈ b.faces, s ∈ f.styles)⟩

/-! ### Faces off their planes -/

variable [Field K] [LinearOrder K]

/-- A corner of a face (bsputil/bsputil.cc:164-166). -/
def corner (b : Bsp K) (k : Int) : Outcome (Vec K) :=
  if k < 0 then .ub
  else
    match b.surfedges[k.toNat]? with
    | none => .ub
    | some e =>
      if e ≥ 0 then
        match b.edges[e.toNat]? with
        | none => .ub
        | some d => Outcome.readAt b.vertexes d.1
      else
        match b.edges[(-e).toNat]? with
        | none => .ub
        | some d => Outcome.readAt b.vertexes d.2

/-- The corners of a face that are off its plane (bsputil/bsputil.cc:163-172), from corner `j` on. -/
def offCorners (b : Bsp K) (eps : K) (pl : Plane K) (first : Int) : Nat → Nat → Outcome (List Nat)
  | 0, _ => .ok []
  | n + 1, j => do
    let p ← corner b (first + j)
    let rest ← offCorners b eps pl first n (j + 1)
    .ok (if pl.distTo p < -eps ∨ pl.distTo p > eps then j :: rest else rest)

/-- `CheckBSPFacesPlanar` for a face (bsputil/bsputil.cc:157-172). A negative number of edges is a huge one when compared with `size_t`. -/
def offFace (b : Bsp K) (eps : K) (f : Face) : Outcome (List Nat) :=
  if f.planenum < 0 then .ub
  else
    match b.planes[f.planenum.toNat]? with
    | none => .ub
    | some pl =>
      if f.numedges < 0 then .ub
      else offCorners b eps (if f.side then ⟨⟨-pl.normal.x, -pl.normal.y, -pl.normal.z⟩, -pl.dist⟩ else pl) f.firstedge f.numedges.toNat 0

/-- `CheckBSPFacesPlanar` (bsputil/bsputil.cc:154-174), from face `i` on: the numbers of the faces and of their corners. -/
def planar (b : Bsp K) (eps : K) : Nat → List Face → Outcome (List (Nat × Nat))
  | _, [] => .ok []
  | i, f :: fs => do
    let js ← offFace b eps f
    let rest ← planar b eps (i + 1) fs
    .ok (js.map (i, ·) ++ rest)

end Verif.BspUtil
