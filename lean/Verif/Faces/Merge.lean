import Verif.Faces.Edge

/-!
Model of merging faces (qbsp/merge.cc:52-207).

Simplifications: exact arithmetic; `qv::normalize` is a parameter; of a face only the parts that are compared and the
winding; the bounding sphere is left out. The paranoid check is left out.
-/

namespace Verif.Faces

open Geom

variable {K : Type} [Field K] [LinearOrder K] [IsStrictOrderedRing K]

/-- `face_t`: plane, texture, light map scale, what the contents in front are, and the winding
(include/qbsp/qbsp.hh:294-314). -/
structure MFace (K : Type) where
  planenum : Nat
  texinfo : Nat
  lmshift : Nat
  liquid : Bool
  sky : Bool
  w : List (Vec K)
  deriving DecidableEq

/-- The options and constants: `nomergeacrossliquids`, `QBSP_EQUAL_EPSILON`, `CONTINUOUS_EPSILON`, the normals of the
planes, and `qv::normalize`. -/
structure MergeCfg (K : Type) where
  noLiquids : Bool
  equal : K
  continuous : K
  normal : Nat → Vec K
  normalize : Vec K → Vec K

/-- `qv::cross`. -/
def cross (a b : Vec K) : Vec K := ⟨a.y * b.z - a.z * b.y, a.z * b.x - a.x * b.z, a.x * b.y - a.y * b.x⟩

/-- `w[i % w.size()]`. -/
def vat (w : List (Vec K)) (i : Nat) : Vec K := w.getD (i % w.length) ⟨0, 0, 0⟩

/-- `fabs(a[k] - b[k]) > QBSP_EQUAL_EPSILON` for no `k` (qbsp/merge.cc:98-101). -/
def closeTo (eps : K) (a b : Vec K) : Bool :=
  decide (|a.x - b.x| ≤ eps) && decide (|a.y - b.y| ≤ eps) && decide (|a.z - b.z| ≤ eps)

/-- The search for a common edge (qbsp/merge.cc:92-110): the first edge of the first polygon that is an edge of the second
polygon in the other direction, and the first such edge. -/
def commonEdge (eps : K) (w1 w2 : List (Vec K)) : Option (Nat × Nat) :=
  (List.range w1.length).findSome? fun i =>
    ((List.range w2.length).find? fun j =>
      closeTo eps (vat w1 i) (vat w2 (j + 1)) && closeTo eps (vat w1 (i + 1)) (vat w2 j)).map fun j => (i, j)

/-- The slope at `p` (qbsp/merge.cc:116-122, 127-133): how far `b` is on the outer side of the line along `delta`. -/
def slope (cfg : MergeCfg K) (planenum : Nat) (delta p b : Vec K) : K :=
  dot (vsub b p) (cfg.normalize (cross (cfg.normal planenum) delta))

/-- `for (; k != i; k = (k + 1) % w.size()) push_back(w[k])` from the vertex after `i`, or the one after that
(qbsp/merge.cc:142-157). -/
def copyFrom (w : List (Vec K)) (i : Nat) (keep : Bool) : List (Vec K) :=
  if keep then w.drop (i + 1) ++ w.take i else (w.drop (i + 1) ++ w.take i).drop 1

/-- `TryMerge` (qbsp/merge.cc:63-162). -/
def tryMerge (cfg : MergeCfg K) (f1 f2 : MFace K) : Option (MFace K) :=
  if f1.w.length = 0 ∨ f2.w.length = 0 ∨ f1.planenum ≠ f2.planenum ∨ f1.texinfo ≠ f2.texinfo ∨ f1.lmshift ≠ f2.lmshift then none
  else if cfg.noLiquids = true ∧ f1.liquid ≠ f2.liquid then none
  else if f1.sky ≠ f2.sky then none
  else
    match commonEdge cfg.equal f1.w f2.w with
    | none => none
    | some (i, j) =>
      let p1 := vat f1.w i
      let p2 := vat f1.w (i + 1)
      let s1 := slope cfg f1.planenum (vsub p1 (vat f1.w (i + f1.w.length - 1))) p1 (vat f2.w (j + 2))
      if s1 > cfg.continuous then none
      else
        let s2 := slope cfg f1.planenum (vsub (vat f1.w (i + 2)) p2) p2 (vat f2.w (j + f2.w.length - 1))
        if s2 > cfg.continuous then none
        else
          some { f1 with w := copyFrom f1.w i (decide (s2 < -cfg.continuous)) ++ copyFrom f2.w j (decide (s1 < -cfg.continuous)) }

/-- The loop of `MergeFaceToList` (qbsp/merge.cc:172-187) over the rest of the list; `before`: the elements already
passed. The state is the list and `num_merged`. `none`: not ended within `fuel` iterations. -/
def mergeLoop {F : Type} (try' : F → F → Option F) : Nat → F → List F → List F → Nat → Option (List F × Nat)
  | fuel, face, before, rest, merged =>
    match rest with
    | [] => some (before ++ [face], merged)
    | f :: rest =>
      match fuel with
      | 0 => none
      | fuel + 1 =>
        match try' face f with
        | some newf => mergeLoop try' fuel newf [] (before ++ rest) (merged + 1)
        | none => mergeLoop try' fuel face (before ++ [f]) rest merged

/-- `MergeFaceToList` (qbsp/merge.cc:169-190). -/
def mergeFaceToList {F : Type} (try' : F → F → Option F) (fuel : Nat) (face : F) (list : List F) (merged : Nat) :
    Option (List F × Nat) :=
  mergeLoop try' fuel face [] list merged

/-- The loop of `MergeFaceList` (qbsp/merge.cc:197-207). -/
def mergeAll {F : Type} (try' : F → F → Option F) (fuel : Nat) : List F → List F × Nat → Option (List F × Nat)
  | [], st => some st
  | f :: fs, st =>
    match mergeFaceToList try' fuel f st.1 st.2 with
    | none => none
    | some st => mergeAll try' fuel fs st

/-- `MergeFaceList` (qbsp/merge.cc:197-207). -/
def mergeFaceList {F : Type} (try' : F → F → Option F) (fuel : Nat) (input : List F) (merged : Nat) : Option (List F × Nat) :=
  mergeAll try' fuel input ([], merged)

end Verif.Faces
