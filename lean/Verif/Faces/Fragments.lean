import Verif.Common.Outcome
import Verif.Faces.Edge

/-!
Model of how qbsp turns a face with the vertices on its edges into fragments (qbsp/tjunc.cc:250-273, 340-881):
triangulation of minimum weight, fans of triangles, rotation, retopology, and the limit of edges.

Simplifications: the geometric tests are parameters; loops have fuel, `none` means that it did not suffice. The counters
of the statistics are left out.
-/

namespace Verif.Faces

/-! ## The limit of edges -/

/-- The loop of `SplitFaceIntoFragments` (qbsp/tjunc.cc:255-269): the rest of the face and the faces added to `output`. -/
def splitLoop (maxedges : Nat) : Nat → List Nat → List (List Nat) → Option (List Nat × List (List Nat))
  | fuel, face, new =>
    if face.length > maxedges then
      match fuel with
      | 0 => none
      | fuel + 1 => splitLoop maxedges fuel (face.take 1 ++ face.drop (maxedges - 1)) (new ++ [face.take maxedges])
    else some (face, new)

/-- An element of `std::list<std::vector<size_t>>`: its address and the vector. Addresses are numbered as the elements
are made. -/
abbrev Cell := Nat × List Nat

/-- `SplitFaceIntoFragments` (qbsp/tjunc.cc:250-273) for the element with the address `id` of the list itself: replace
the face, append the new faces, and move the first element of the list to its end. -/
def splitInList (maxedges fuel : Nat) (id : Nat) (face : List Nat) (l : List Cell) : Option (List Cell) :=
  match splitLoop maxedges fuel face [] with
  | none => none
  | some (face', new) =>
    let l1 := l.map (fun c => if c.1 = id then (id, face') else c)
    let l2 := l1 ++ new.zipIdx.map (fun x => (l.length + x.2, x.1))
    some (l2.drop 1 ++ l2.take 1)

/-- `++it` for an iterator of a list: the address of the element after `id` (none: the end). -/
def nextCell (l : List Cell) (id : Nat) : Option Nat := (((l.dropWhile fun c => c.1 ≠ id).drop 1).head?).map (·.1)

/-- `for (auto &face : faces) { ... SplitFaceIntoFragments(face, faces, stats); ... }` (qbsp/tjunc.cc:864-868). The list
changes during the loop; the iterator stays with its element. -/
def limitLoop (maxedges : Nat) : Nat → Option Nat → List Cell → Option (Outcome (List Cell))
  | _, none, l => some (.ok l)
  | 0, some _, _ => none
  | fuel + 1, some id, l =>
    match l.find? (fun c => c.1 = id) with
    | none => some .ub
    | some c =>
      if c.2.length < 3 then some .error
      else
        match splitInList maxedges fuel id c.2 l with
        | none => none
        | some l' =>
          match l'.find? (fun c => c.1 = id) with
          | none => some .ub
          | some c' => if c'.2.length < 3 then some .error else limitLoop maxedges fuel (nextCell l' id) l'

/-- The limit of edges in `FixFaceEdges` (qbsp/tjunc.cc:862-876): the faces in the order of the list. -/
def limitFaces (maxedges fuel : Nat) (faces : List (List Nat)) : Option (Outcome (List (List Nat))) :=
  if maxedges ≠ 0 then
    let l : List Cell := faces.zipIdx.map fun x => (x.2, x.1)
    (limitLoop maxedges fuel (l.head?.map (·.1)) l).map fun r => r >>= fun l => .ok (l.map (·.2))
  else some (.ok faces)

/-! ## Triangulation of minimum weight -/

/-- `qvectri`. -/
abbrev Tri := Nat × Nat × Nat

/-- `std::sort(tri.begin(), tri.end())`. -/
def sort3 (a b c : Nat) : Tri :=
  let lo := min a (min b c)
  let hi := max a (max b c)
  (lo, a + b + c - lo - hi, hi)

/-- The weights (qbsp/tjunc.cc:522-541): zero and the maximum of `double`, `<`, and the weight of the triangle `i k j`
together with the weights of the parts below `i k` and `k j`. -/
structure Weights (D : Type) where
  zero : D
  max : D
  lt : D → D → Bool
  weight : Nat → Nat → Nat → D → D → D

variable {D : Type}

/-- The loop over `k` (qbsp/tjunc.cc:525-543): the weight and the choice, given the table `T`. -/
def bestK (w : Weights D) (T : Nat → Nat → D) (i j : Nat) : List Nat → D × Option Nat → D × Option Nat
  | [], best => best
  | k :: ks, best =>
    let weight := w.weight i k j (T i k) (T k j)
    bestK w T i j ks (if w.lt weight best.1 then (weight, some k) else best)

/-- The tables after the first `d` diagonals (qbsp/tjunc.cc:508-545). `T[i + (j * n)]` is `T i j`. The entries of a
diagonal are set at once: they only depend on earlier diagonals. -/
def fillTables (w : Weights D) (n : Nat) : Nat → (Nat → Nat → D) × (Nat → Nat → Option Nat)
  | 0 => (fun _ _ => w.zero, fun _ _ => none)
  | d + 1 =>
    let t := fillTables w n d
    let entry := fun i j => bestK w t.1 i j (List.range' (i + 1) (j - i - 1)) (w.max, none)
    (fun i j => if j = i + d ∧ j < n ∧ ¬ j < i + 2 then (entry i j).1 else t.1 i j,
      fun i j => if j = i + d ∧ j < n ∧ ¬ j < i + 2 then (entry i j).2 else t.2 i j)

/-- The loop over the queue of edges (qbsp/tjunc.cc:551-571). -/
def triLoop (K : Nat → Nat → Option Nat) : Nat → List (Nat × Nat) → List Tri → Option (List Tri)
  | fuel, queue, tris =>
    match queue with
    | [] => some tris
    | e :: queue =>
      match fuel with
      | 0 => none
      | fuel + 1 =>
        if e.1 = e.2 then triLoop K fuel queue tris
        else
          match K e.1 e.2 with
          | none => triLoop K fuel queue tris
          | some c => triLoop K fuel (queue ++ [(e.1, c), (c, e.2)]) (tris ++ [sort3 e.1 e.2 c])

/-- `minimum_weight_triangulation` (qbsp/tjunc.cc:502-576) for `n` vertices. -/
def minWeightTris (w : Weights D) (fuel n : Nat) : Option (Outcome (List Tri)) :=
  (triLoop (fillTables w n n).2 fuel [(0, n - 1)] []).map fun tris =>
    if tris.length = n - 2 then .ok tris else .error

/-! ## Fans -/

/-- The test of `triangle_exists` for one triangle (qbsp/tjunc.cc:349-353). -/
def triMatches (t : Tri) (a b c : Nat) : Bool :=
  (t.1 = a && t.2.1 = b && t.2.2 = c) || (t.2.1 = a && t.2.2 = b && t.1 = c) || (t.2.2 = a && t.1 = b && t.2.1 = c)

/-- `triangle_exists` (qbsp/tjunc.cc:344-357). -/
def triExists (tris : List Tri) (a b c : Nat) : Option Nat := tris.findIdx? fun t => triMatches t a b c

/-- `s, s + 1, ..., n - 1, 0, ..., s - 1`. -/
def cyc (s n : Nat) : List Nat := (List.range n).drop s ++ (List.range n).take s

/-- The loop over `last` (qbsp/tjunc.cc:378-390); the list holds the values of `last`. -/
def fanFrom (tris : List Tri) (first : Nat) : Nat → List Nat → List Nat
  | _, [] => []
  | mid, last :: lasts =>
    match triExists tris first mid last with
    | none => fanFrom tris first mid lasts
    | some i => i :: fanFrom tris first last lasts

/-- The three permutations of a triangle (qbsp/tjunc.cc:368-371). -/
def perms (t : Tri) : List Tri := [t, (t.2.1, t.2.2, t.1), (t.2.2, t.1, t.2.1)]

/-- `find_best_fan` (qbsp/tjunc.cc:361-399). The values of `last` run from the third vertex around the polygon until
`first`. -/
def bestFan (tris : List Tri) (n : Nat) : List Nat :=
  (tris.flatMap perms).foldl (fun best p =>
    let my := fanFrom tris p.1 p.2.1 ((cyc p.2.2 n).takeWhile (· ≠ p.1))
    if best.isEmpty || my.length > best.length then my else best) []

/-- The vertices of a triangle. -/
def triVerts (t : Tri) : List Nat := [t.1, t.2.1, t.2.2]

/-- The loop of `find_seed_vertex` (qbsp/tjunc.cc:407-423) over the rest of the fan. `pick`: `*verts.begin()` of an
unordered set. -/
def seedLoop (tris : List Tri) (pick : List Nat → Nat) : List Nat → List Nat → Outcome Nat
  | [], verts => if verts.isEmpty then .ub else .ok (pick verts)
  | i :: fan, verts =>
    match tris[i]? with
    | none => .ub
    | some t =>
      let verts' := verts.filter fun v => v ∈ triVerts t
      if verts'.length = 1 then .ok (pick verts') else seedLoop tris pick fan verts'

/-- `find_seed_vertex` (qbsp/tjunc.cc:403-427). -/
def findSeedVertex (tris : List Tri) (pick : List Nat → Nat) (fan : List Nat) : Outcome Nat :=
  match fan with
  | [] => .ub
  | i :: fan =>
    match tris[i]? with
    | none => .ub
    | some t => seedLoop tris pick fan (triVerts t)

/-- The loop of `compress_triangles_into_fans` (qbsp/tjunc.cc:434-493). A `std::set` with the predicate that starts at
the seed holds its members in the order `cyc seed n`. -/
def compressLoop (pick : List Nat → Nat) (vertices : List Nat) :
    Nat → List Tri → List (List Nat) → Option (Outcome (List (List Nat)))
  | fuel, tris, out =>
    if tris.isEmpty then some (.ok out)
    else
      match fuel with
      | 0 => none
      | fuel + 1 =>
        let fan := bestFan tris vertices.length
        let name := fun v => vertices.getD v 0
        if fan.length = 0 then some .error
        else if fan.length = 1 then some (.ok (out ++ tris.map fun t => [name t.1, name t.2.1, name t.2.2]))
        else
          match findSeedVertex tris pick fan with
          | .error => some .error
          | .ub => some .ub
          | .ok seed =>
            let members := fan.flatMap fun i => (tris[i]?).toList.flatMap triVerts
            let verts := (cyc seed vertices.length).filter fun v => v ∈ members
            if verts.length < 3 then some .error
            else
              let rest := (fan.mergeSort fun a b => b ≤ a).foldl (fun l i => l.eraseIdx i) tris
              compressLoop pick vertices fuel rest (out ++ [verts.map name])

/-- `mwt_face` (qbsp/tjunc.cc:578-597). -/
def mwtFace (w : Weights D) (pick : List Nat → Nat) (fuel : Nat) (vertices : List Nat) :
    Option (Outcome (List (List Nat))) :=
  match minWeightTris w fuel vertices.length with
  | none => none
  | some (.ok tris) => compressLoop pick vertices fuel tris []
  | some .error => some .error
  | some .ub => some .ub

/-! ## Retopology and rotation -/

/-- The geometric tests: `TriangleIsValid`, and whether `PointOnEdge` finds the last vertex on the edge between the
first two. -/
structure Tests where
  valid : Nat → Nat → Nat → Bool
  onEdge : Nat → Nat → Nat → Bool

/-- `input[i % input.size()]`. -/
def at' (input : List Nat) (i : Nat) : Nat := input.getD (i % input.length) 0

/-- The test of a seed (qbsp/tjunc.cc:627-648). -/
def seedGood (t : Tests) (input : List Nat) (seed : Nat) : Bool :=
  t.valid (at' input seed) (at' input (seed + 1)) (at' input (seed + 2)) &&
    !t.onEdge (at' input seed) (at' input (seed + 2)) (at' input (seed + 3))

/-- The search for a seed (qbsp/tjunc.cc:626-654). -/
def findSeed (t : Tests) (input : List Nat) : Option Nat := (List.range input.length).find? (seedGood t input)

/-- The loop that winds from the seed (qbsp/tjunc.cc:663-679). -/
def windLoop (t : Tests) (input : List Nat) (seed wrap : Nat) : Nat → Nat → Option Nat
  | fuel, stop =>
    if stop = wrap then some stop
    else if t.onEdge (at' input seed) (at' input stop) (at' input (stop + 1)) then
      some (if stop = 0 then input.length - 1 else stop - 1)
    else
      match fuel with
      | 0 => none
      | fuel + 1 => windLoop t input seed wrap fuel ((stop + 1) % input.length)

/-- `RetopologizeFace` (qbsp/tjunc.cc:608-756). An empty result is a failure. -/
def retopologize (t : Tests) : Nat → List Nat → List (List Nat) → Option (List (List Nat))
  | fuel, input, result =>
    if input.length = 0 then some result
    else if input.length < 3 then some []
    else
      match findSeed t input with
      | none => some []
      | some seed =>
        let wrap := (seed + 2) % input.length
        match windLoop t input seed wrap input.length ((wrap + 1) % input.length) with
        | none => none
        | some stop =>
          if seed = stop then some (result ++ [input])
          else if stop = wrap then some (result ++ [input.drop seed ++ input.take seed])
          else
            match fuel with
            | 0 => none
            | fuel + 1 =>
              if stop < seed then
                retopologize t fuel ((input.drop stop).take (seed + 1 - stop))
                  (result ++ [input.drop seed ++ input.take stop])
              else
                retopologize t fuel (input.take (seed + 1) ++ input.drop stop)
                  (result ++ [(input.drop seed).take (stop + 1 - seed)])

/-- The search for a rotation (qbsp/tjunc.cc:804-824): the first base whose fan has only valid triangles. -/
def findRotation (t : Tests) (face : List Nat) : Option Nat :=
  (List.range face.length).find? fun i =>
    (List.range (face.length - 2)).all fun x => t.valid (at' face i) (at' face (i + x + 1)) (at' face (i + x + 2))

/-! ## `FixFaceEdges` -/

/-- `tjunclevel_t` (include/qbsp/qbsp.hh). -/
inductive TjuncLevel where
  | none
  | rotate
  | retopologize
  | mwt
  deriving DecidableEq

/-- The order of the levels. -/
def TjuncLevel.rank : TjuncLevel → Nat
  | .none => 0
  | .rotate => 1
  | .retopologize => 2
  | .mwt => 3

/-- The faces before the limit of edges is applied (qbsp/tjunc.cc:785-860). -/
def chooseFaces (w : Weights D) (pick : List Nat → Nat) (t : Tests) (level : TjuncLevel) (fuel : Nat) (face : List Nat) :
    Option (Outcome (List (List Nat))) :=
  let afterMwt : Option (Outcome (List (List Nat))) :=
    if level.rank ≥ TjuncLevel.mwt.rank then mwtFace w pick fuel face else some (.ok [])
  match afterMwt with
  | none => none
  | some .error => some .error
  | some .ub => some .ub
  | some (.ok faces) =>
    let afterRotate : Option (List (List Nat)) :=
      if faces.isEmpty ∧ level.rank ≥ TjuncLevel.rotate.rank then
        match findRotation t face with
        | none =>
          if level.rank ≥ TjuncLevel.retopologize.rank then
            match retopologize t fuel face [] with
            | none => none
            | some r => some (if r.length > 1 then r else [])
          else some []
        | some i => some (if i ≠ 0 then [face.drop i ++ face.take i] else [])
      else some faces
    match afterRotate with
    | none => none
    | some faces => some (.ok (if faces.isEmpty then [face] else faces))

/-- `FixFaceEdges` (qbsp/tjunc.cc:765-881): the fragments of a face. `superface`: the result of `CreateSuperFace`. -/
def fixFaceEdges (w : Weights D) (pick : List Nat → Nat) (t : Tests) (level : TjuncLevel) (maxedges fuel : Nat)
    (original superface : List Nat) : Option (Outcome (List (List Nat))) :=
  if level = .none then some (.ok [original])
  else if superface.length < 3 then some (.ok [])
  else if superface.length = 3 then some (.ok [original])
  else
    match chooseFaces w pick t level fuel superface with
    | none => none
    | some .error => some .error
    | some .ub => some .ub
    | some (.ok faces) =>
      match limitFaces maxedges fuel faces with
      | none => none
      | some .error => some .error
      | some .ub => some .ub
      | some (.ok frags) => if frags.all (fun f => f.length ≥ 3) then some (.ok frags) else some .error

end Verif.Faces
