import Verif.Archive.SearchSpec

/-!
Model of the wads qbsp loads for a map (qbsp/map.cc:214-281, qbsp/qbsp.cc:49-99).

Simplification: how a text becomes a path is a parameter.
-/

namespace Verif.Archive.Wads

open Verif.Cmdlib (Str)

/-- The order of components, as bytes. -/
def strLt : Str → Str → Bool
  | _, [] => false
  | [], _ :: _ => true
  | a :: as, b :: bs => a < b || (a == b && strLt as bs)

/-- The order of paths, by their components. -/
def partsLt : List Str → List Str → Bool
  | _, [] => false
  | [], _ :: _ => true
  | a :: as, b :: bs => strLt a b || (a == b && partsLt as bs)

/-- `path::operator<` on a POSIX system. -/
def pathLt (p q : Path) : Bool := (!p.abs && q.abs) || (p.abs == q.abs && partsLt p.parts q.parts)

/-- A `wadpath` (include/qbsp/qbsp.hh:82-89): the path and whether its wads are not embedded. -/
abbrev WadPath := Path × Bool

/-- `std::set::insert` with `wadpath::operator<` (qbsp/qbsp.cc:49-52, 64, 95): a path that is there is not added again. -/
def insertPath (w : WadPath) : List WadPath → List WadPath
  | [] => [w]
  | v :: l => if pathLt w.1 v.1 then w :: v :: l else if pathLt v.1 w.1 then v :: insertPath w l else v :: l

/-- The options `-wadpath` and `-xwadpath`, in the order of the command line (qbsp/qbsp.cc:88-99). -/
def wadPaths (options : List WadPath) : List WadPath := options.foldl (fun l w => insertPath w l) []

/-- The loop over the wad paths, and the working directory behind them (qbsp/map.cc:221-233). -/
def tryPaths (d : Disk) (p : Path) : List WadPath → State → Outcome (State × Option Ref)
  | [], st => addArchive d st p false
  | w :: ws, st =>
    addArchive d st (w.1.join p) w.2 >>= fun r =>
      match r.2 with
      | some a => .ok (r.1, some a)
      | none => tryPaths d p ws r.1

/-- `LoadTexturePath` (qbsp/map.cc:214-234). -/
def loadTexturePath (d : Disk) (ws : List WadPath) (st : State) (p : Path) : Outcome (State × Option Ref) :=
  if p.abs then addArchive d st p false else tryPaths d p ws st

/-- `std::getline` with `;` until it fails (qbsp/map.cc:263). -/
def parts (s : Str) : List Str :=
  match s with
  | [] => []
  | a :: l => (a :: l).takeWhile (· ≠ 59) :: parts ((a :: l).drop (((a :: l).takeWhile (· ≠ 59)).length + 1))
  termination_by s.length
  decreasing_by simp; omega

/-- The loop over the parts (qbsp/map.cc:263-267): the state, and whether any archive was loaded. -/
def loadParts (d : Disk) (toPath : Str → Path) (ws : List WadPath) : List Str → State → Bool → Outcome (State × Bool)
  | [], st, any => .ok (st, any)
  | s :: l, st, any =>
    loadTexturePath d ws st (toPath s) >>= fun r => loadParts d toPath ws l r.1 (any || r.2.isSome)

/-- `EnsureTexturesLoaded` (qbsp/map.cc:236-281), the first time, for a game other than Quake 2; `wad_` and `wad` are the
values of the keys `_wad` and `wad` of the world, `deflt` is the map's path with the extension `wad`. -/
def ensure (d : Disk) (toPath : Str → Path) (ws : List WadPath) (wad_ wad : Str) (deflt : Path) (st : State) : Outcome State :=
  let text := if wad_ = [] then wad else wad_
  (if text = [] then .ok (st, false) else loadParts d toPath ws (parts text) st false) >>= fun r =>
    if r.2 then .ok r.1
    else if (d deflt).there then loadTexturePath d ws r.1 deflt >>= fun q => .ok q.1
    else .ok r.1

end Verif.Archive.Wads
