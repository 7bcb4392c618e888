import Verif.Common.Outcome

/-!
Model of portal files: numbering of leafs and clusters and writing of the file in qbsp (qbsp/prtfile.cc:41-254), reading
it in vis (common/prtfile.cc:35-174) and the leaf table that vis builds from it (vis/vis.cc:584-676).

Simplifications: the file is read on a system without newline conversion; memory exhaustion and write errors are not
modelled; the counters do not overflow. Whether vis can see through a portal (`Portal_VisFlood`), and whether the plane
of the winding is turned around, are data of the portal. How a coordinate is printed and read is given by `Coord`.
-/

namespace Verif.Prt

open Verif

/-- Outcome of a program that may also run forever. -/
inductive Run (α : Type) where
  | ok (a : α)
  | error
  | ub
  | hang
  deriving DecidableEq

namespace Run

def bind {α β : Type} (r : Run α) (f : α → Run β) : Run β :=
  match r with
  | ok a => f a
  | error => error
  | ub => ub
  | hang => hang

instance : Monad Run where
  pure := ok
  bind := bind

@[simp] theorem pure_eq {α : Type} (a : α) : (pure a : Run α) = ok a := rfl
@[simp] theorem ok_bind {α β : Type} (a : α) (f : α → Run β) : (ok a >>= f) = f a := rfl
@[simp] theorem error_bind {α β : Type} (f : α → Run β) : ((error : Run α) >>= f) = error := rfl
@[simp] theorem ub_bind {α β : Type} (f : α → Run β) : ((ub : Run α) >>= f) = ub := rfl
@[simp] theorem hang_bind {α β : Type} (f : α → Run β) : ((hang : Run α) >>= f) = hang := rfl

theorem bind_eq_ok {α β : Type} {r : Run α} {f : α → Run β} {b : β} :
    (r >>= f) = ok b ↔ ∃ a, r = ok a ∧ f a = ok b := by
  cases r <;> simp

/-- A value that is used although it may not have been stored. -/
def use {α : Type} : Option α → Run α
  | some a => ok a
  | none => ub

theorem use_eq_ok {α : Type} {o : Option α} {a : α} : use o = ok a ↔ o = some a := by
  cases o <;> simp [use]

/-- Writing an element of a `std::vector` through `operator[]`. -/
def writeAt {α : Type} (l : List α) (i : Nat) (a : α) : Run (List α) :=
  if i < l.length then ok (l.set i a) else ub

/-- Reading an element of a `std::vector` through `operator[]`. -/
def readAt {α : Type} (l : List α) (i : Nat) : Run α := use l[i]?

end Run

/-! ### The tree -/

/-- Characters of a text file. -/
abbrev Text := List Char

/-- Identity of a `node_t` (its address). -/
abbrev Id := Nat

/-- How coordinates are written (`WriteFloat` without the space, qbsp/prtfile.cc:41-47) and read
(`std::istream::operator>>(double &)` after white space): the value and the text behind it, `none` when there is no
number. -/
structure Coord (V : Type) where
  text : V → Text
  scan : Text → Option (V × Text)

/-- `portal_t` (include/qbsp/portals.hh) as far as the portal file depends on it. `flood`: `Portal_VisFlood`
(qbsp/portals.cc:59-76); `flip`: the test of qbsp/prtfile.cc:92; `points`: the winding. -/
structure Portal (V : Type) where
  front : Id
  back : Id
  flood : Bool
  flip : Bool
  points : List (V × V × V)

/-- `node_t` (include/qbsp/qbsp.hh:425-): a leaf (solid or not) or a node (a detail separator or not), and its list of
portals. -/
inductive Tree (V : Type) where
  | leaf (id : Id) (solid : Bool) (portals : List (Portal V))
  | node (id : Id) (detail : Bool) (portals : List (Portal V)) (front back : Tree V)

/-- The counters of `portal_state_t` (qbsp/prtfile.cc:136-142) and the fields `visleafnum` and `viscluster` of the nodes;
`none`: not stored. -/
structure Num where
  leafs : Nat
  clusters : Nat
  portals : Nat
  detail : Bool
  leafnum : Id → Option Int
  cluster : Id → Option Int

/-- Storing a field of a node. -/
def store (m : Id → Option Int) (id : Id) (v : Int) : Id → Option Int := fun j => if j = id then some v else m j

/-- `CountPortals` (qbsp/prtfile.cc:144-159): the number that is added. -/
def countPortals {V : Type} (id : Id) (ps : List (Portal V)) : Nat :=
  (ps.filter fun p => decide (p.front = id) && p.flood).length

/-- `NumberLeafs_r` (qbsp/prtfile.cc:169-194). -/
def numberLeafs {V : Type} : Tree V → Int → Num → Num
  | .node id detail ps l r, cluster, st =>
    if cluster < 0 ∧ detail = true then
      let st' := { st with
        detail := true
        clusters := st.clusters + 1
        cluster := store st.cluster id st.clusters
        portals := st.portals + countPortals id ps }
      numberLeafs r st.clusters (numberLeafs l st.clusters st')
    else numberLeafs r cluster (numberLeafs l cluster st)
  | .leaf id true _, _, st =>
    { st with leafnum := store st.leafnum id (-1), cluster := store st.cluster id (-1) }
  | .leaf id false ps, cluster, st =>
    if cluster < 0 then
      { st with
        leafnum := store st.leafnum id st.leafs
        leafs := st.leafs + 1
        cluster := store st.cluster id st.clusters
        clusters := st.clusters + 1
        portals := st.portals + countPortals id ps }
    else
      { st with
        leafnum := store st.leafnum id st.leafs
        leafs := st.leafs + 1
        cluster := store st.cluster id cluster
        portals := st.portals + countPortals id ps }

/-- The state before numbering: the fields of the nodes have not been stored. -/
def Num.zero : Num := ⟨0, 0, 0, false, fun _ => none, fun _ => none⟩

/-! ### Writing -/

/-- Decimal digits of a natural number. -/
def natText (n : Nat) : Text :=
  if n < 10 then [Char.ofNat (48 + n)] else natText (n / 10) ++ [Char.ofNat (48 + n % 10)]

/-- An integer formatted by `{}`. -/
def intText (v : Int) : Text := if v < 0 then '-' :: natText v.natAbs else natText v.natAbs

/-- One point of a winding (qbsp/prtfile.cc:98-104). -/
def pointText {V : Type} (c : Coord V) (p : V × V × V) : Text :=
  '(' :: (c.text p.1 ++ ' ' :: (c.text p.2.1 ++ ' ' :: (c.text p.2.2 ++ [' ', ')', ' '])))

/-- The line of one portal (qbsp/prtfile.cc:92-105). -/
def portalText {V : Type} (c : Coord V) (p : Portal V) (front back : Int) : Text :=
  let a := if p.flip then back else front
  let b := if p.flip then front else back
  intText p.points.length ++ ' ' :: (intText a ++ ' ' :: (intText b ++ ' ' :: (p.points.flatMap (pointText c) ++ ['\n'])))

/-- The loop of `WritePortals_r` over the portals of a leaf or cluster (qbsp/prtfile.cc:67-106). `field`: `viscluster`
or `visleafnum`. -/
def portalLines {V : Type} (c : Coord V) (field : Id → Option Int) (id : Id) : List (Portal V) → Run Text
  | [] => .ok []
  | p :: ps =>
    if p.points.length = 0 ∨ p.front ≠ id ∨ p.flood = false then portalLines c field id ps
    else do
      let front ← Run.use (field p.front)
      let back ← Run.use (field p.back)
      if front = -1 ∨ back = -1 then .error
      else
        let rest ← portalLines c field id ps
        pure (portalText c p front back ++ rest)

/-- `WritePortals_r` (qbsp/prtfile.cc:49-107). -/
def writePortals {V : Type} (c : Coord V) (field : Id → Option Int) : Tree V → Run Text
  | .node id detail ps l r =>
    if detail then portalLines c field id ps
    else do
      let a ← writePortals c field l
      let b ← writePortals c field r
      pure (a ++ b)
  | .leaf _ true _ => .ok []
  | .leaf id false ps => portalLines c field id ps

/-- `WritePTR2ClusterMapping_r` (qbsp/prtfile.cc:109-134): the text and the current cluster. -/
def writeMapping {V : Type} (st : Num) : Tree V → Int → Run (Text × Int)
  | .node _ _ _ l r, vc => do
    let a ← writeMapping st l vc
    let b ← writeMapping st r a.2
    pure (a.1 ++ b.1, b.2)
  | .leaf _ true _, vc => .ok ([], vc)
  | .leaf id false _, vc => do
    let cl ← Run.use (st.cluster id)
    let num ← Run.use (st.leafnum id)
    if cl ≠ vc then
      if cl ≠ vc + 1 then .error
      else pure (['-', '1', '\n'] ++ intText num ++ [' '], vc + 1)
    else pure (intText num ++ [' '], vc)

/-- `WritePortalfile` (qbsp/prtfile.cc:201-254). -/
def writePrt {V : Type} (c : Coord V) (q2 forceprt1 : Bool) (t : Tree V) : Run Text :=
  let st := numberLeafs t (-1) Num.zero
  if q2 then do
    let ps ← writePortals c st.cluster t
    pure ("PRT1\n".toList ++ intText st.clusters ++ '\n' :: (intText st.portals ++ '\n' :: ps))
  else if st.detail = false then do
    let ps ← writePortals c st.leafnum t
    pure ("PRT1\n".toList ++ intText st.leafs ++ '\n' :: (intText st.portals ++ '\n' :: ps))
  else if forceprt1 then do
    let ps ← writePortals c st.cluster t
    pure ("PRT1\n".toList ++ intText st.clusters ++ '\n' :: (intText st.portals ++ '\n' :: ps))
  else do
    let ps ← writePortals c st.cluster t
    let m ← writeMapping st t 0
    if m.2 ≠ (st.clusters : Int) - 1 then .error
    else
      pure ("PRT2\n".toList ++ intText st.leafs ++ '\n' :: (intText st.clusters ++ '\n' :: (intText st.portals ++
        '\n' :: (ps ++ (m.1 ++ ['-', '1', '\n'])))))

/-! ### Reading -/

/-- `std::ifstream`: the text ahead, `failbit` and `eofbit`. `badbit` is never set. -/
structure TStream where
  chars : Text
  fail : Bool
  eof : Bool
  deriving DecidableEq

/-- White space of the C locale. -/
def isWs (c : Char) : Bool := c = ' ' || c = '\n' || c = '\t' || c = '\r' || c.toNat = 11 || c.toNat = 12

/-- Decimal digit. -/
def isDigit (c : Char) : Bool := decide (48 ≤ c.toNat) && decide (c.toNat ≤ 57)

/-- Value of a string of digits. -/
def digitsValue (ds : Text) : Nat := ds.foldl (fun a c => a * 10 + (c.toNat - 48)) 0

/-- An optional sign: whether it is `-`, and the rest. -/
def takeSign : Text → Bool × Text
  | [] => (false, [])
  | c :: cs => if c = '-' then (true, cs) else if c = '+' then (false, cs) else (false, c :: cs)

/-- Storing a number that was read: a number out of range stores the nearest `int` and sets `failbit`. -/
def clampInt (v : Int) (rest : Text) : Option Int × TStream :=
  if v < -2147483648 then (some (-2147483648), ⟨rest, true, rest = []⟩)
  else if v > 2147483647 then (some 2147483647, ⟨rest, true, rest = []⟩)
  else (some v, ⟨rest, false, rest = []⟩)

/-- `std::istream::operator>>(int &)`: `none` when the variable is not stored (the stream was not good, or only white
space was left); no number stores 0 and sets `failbit`. -/
def getInt (s : TStream) : Option Int × TStream :=
  if s.fail || s.eof then (none, { s with fail := true })
  else
    match s.chars.dropWhile isWs with
    | [] => (none, ⟨[], true, true⟩)
    | c :: cs =>
      let sg := takeSign (c :: cs)
      let ds := sg.2.takeWhile isDigit
      let rest := sg.2.dropWhile isDigit
      if ds = [] then (some 0, ⟨rest, true, rest = []⟩)
      else clampInt (if sg.1 then -(digitsValue ds : Int) else digitsValue ds) rest

/-- `while (!f.bad() && f.get() != c);` (common/prtfile.cc:101-102, 106-107): without the character the loop never
ends, because the end of the file does not set `badbit`. -/
def skipTo (c : Char) (s : TStream) : Run TStream :=
  if s.fail || s.eof then .hang
  else
    match s.chars.dropWhile (fun d => d ≠ c) with
    | [] => .hang
    | _ :: rest => .ok ⟨rest, false, false⟩

/-- `std::istream::operator>>(double &)`: `none` when the stream fails. -/
def getCoord {V : Type} (c : Coord V) (s : TStream) : Option (V × TStream) :=
  if s.fail || s.eof then none
  else
    match s.chars.dropWhile isWs with
    | [] => none
    | d :: ds =>
      match c.scan (d :: ds) with
      | none => none
      | some r => some (r.1, ⟨r.2, false, r.2 = []⟩)

/-- One point (common/prtfile.cc:100-110). On a failed stream the search for the closing parenthesis never ends. -/
def getPoint {V : Type} (c : Coord V) (s : TStream) : Run ((V × V × V) × TStream) := do
  let s0 ← skipTo '(' s
  match getCoord c s0 with
  | none => .hang
  | some x =>
    match getCoord c x.2 with
    | none => .hang
    | some y =>
      match getCoord c y.2 with
      | none => .hang
      | some z => do
        let s1 ← skipTo ')' z.2
        pure ((x.1, y.1, z.1), s1)

/-- The loop over the points of a portal (common/prtfile.cc:99-113). -/
def getPoints {V : Type} (c : Coord V) : Nat → TStream → Run (List (V × V × V) × TStream)
  | 0, s => .ok ([], s)
  | n + 1, s => do
    let p ← getPoint c s
    let r ← getPoints c n p.2
    pure (p.1 :: r.1, r.2)

/-- `prtfile_portal_t` (include/common/prtfile.hh). -/
structure PrtPortal (V : Type) where
  leaf0 : Int
  leaf1 : Int
  points : List (V × V × V)
  deriving DecidableEq

/-- Conversion of an `int` to `unsigned`. -/
def toUnsigned (v : Int) : Int := v % 4294967296

/-- One portal (common/prtfile.cc:84-116). `numpoints > PRT_MAX_WINDING` compares as `size_t`. -/
def getPortal {V : Type} (c : Coord V) (portalleafs : Int) (s : TStream) : Run (PrtPortal V × TStream) := do
  let r0 := getInt s
  let r1 := getInt r0.2
  let r2 := getInt r1.2
  let numpoints ← Run.use r0.1
  if numpoints % 18446744073709551616 > 64 then .error
  else
    let l0 ← Run.use r1.1
    let l1 ← Run.use r2.1
    if toUnsigned l0 > toUnsigned portalleafs ∨ toUnsigned l1 > toUnsigned portalleafs then .error
    else
      let ps ← getPoints c numpoints.toNat r2.2
      pure (⟨l0, l1, ps.1⟩, ps.2)

/-- The loop over the portals (common/prtfile.cc:83-116). -/
def getPortals {V : Type} (c : Coord V) (portalleafs : Int) : Nat → TStream → Run (List (PrtPortal V) × TStream)
  | 0, s => .ok ([], s)
  | n + 1, s => do
    let p ← getPortal c portalleafs s
    let r ← getPortals c portalleafs n p.2
    pure (p.1 :: r.1, r.2)

/-- `prtfile_t` (include/common/prtfile.hh); `clusters`: the field `cluster` of `dleafinfos`. -/
structure PrtFile (V : Type) where
  portalleafs : Int
  real : Int
  portals : List (PrtPortal V)
  clusters : List Int
  deriving DecidableEq

/-- The kinds of portal files (common/prtfile.cc:29-31). -/
inductive Magic where
  | prt1
  | prt2
  | am
  deriving DecidableEq

/-- `std::vector::resize(n + 1)` of an empty vector: the elements are zero; a negative size throws; `n + 1` may
overflow. -/
def table (n : Int) : Run (List Int) :=
  if n = 2147483647 then .ub else if n + 1 < 0 then .error else .ok (List.replicate (n + 1).toNat 0)

theorem getInt_measure {s : TStream} {v : Int} {s' : TStream} (h : getInt s = (some v, s')) :
    (if s'.fail then 0 else s'.chars.length + 1) < (if s.fail then 0 else s.chars.length + 1) := by
  unfold getInt at h
  split at h
  · simp at h
  · rename_i hg
    have hf : s.fail = false := by
      cases hs : s.fail <;> simp_all
    rw [hf]
    have hlen : (s.chars.dropWhile isWs).length ≤ s.chars.length := (List.dropWhile_sublist _).length_le
    split at h
    · simp at h
    · rename_i c cs hc
      rw [hc] at hlen
      simp only at h
      have hs : (takeSign (c :: cs)).2.length ≤ (c :: cs).length := by
        by_cases h1 : c = '-'
        · simp [takeSign, h1]
        · by_cases h2 : c = '+' <;> simp [takeSign, h1, h2]
      have hsplit := congrArg List.length (List.takeWhile_append_dropWhile (p := isDigit) (l := (takeSign (c :: cs)).2))
      rw [List.length_append] at hsplit
      split at h
      · obtain ⟨_, rfl⟩ := Prod.mk.inj h; simp
      · rename_i hne
        have : 0 < ((takeSign (c :: cs)).2.takeWhile isDigit).length := List.length_pos_iff.2 hne
        revert h
        generalize (if (takeSign (c :: cs)).1 = true then
          -(digitsValue ((takeSign (c :: cs)).2.takeWhile isDigit) : Int)
          else digitsValue ((takeSign (c :: cs)).2.takeWhile isDigit)) = z
        intro h
        unfold clampInt at h
        split at h
        · obtain ⟨_, rfl⟩ := Prod.mk.inj h; simp
        · split at h
          · obtain ⟨_, rfl⟩ := Prod.mk.inj h; simp
          · obtain ⟨_, rfl⟩ := Prod.mk.inj h
            simp only [Bool.false_eq_true, if_false]
            omega

/-- The leafs of one cluster (common/prtfile.cc:142-152). -/
def readCluster (real i : Int) (t : List Int) (s : TStream) : Run (List Int × TStream) :=
  match _h : getInt s with
  | (none, s') => if s'.eof then .ok (t, s') else .ub
  | (some leafnum, s') =>
    if s'.eof then .ok (t, s')
    else if leafnum < 0 then .ok (t, s')
    else if leafnum ≥ real then .error
    else if (leafnum + 1).toNat < t.length then readCluster real i (t.set (leafnum + 1).toNat i) s'
    else .ub
  termination_by (if s.fail then 0 else s.chars.length + 1)
  decreasing_by exact getInt_measure _h

/-- The cluster map of a PRT2 file (common/prtfile.cc:141-158). `n`: the clusters left to read. -/
def readClusters (real : Int) : Nat → Int → List Int → TStream → Run (List Int)
  | 0, _, t, _ => .ok t
  | n + 1, i, t, s => do
    let r ← readCluster real i t s
    if r.2.eof then .error else readClusters real n (i + 1) r.1 r.2

/-- The cluster map of a PRT1-AM file (common/prtfile.cc:162-174). -/
def readAm (portalleafs : Int) : Nat → Nat → List Int → TStream → Run (List Int)
  | 0, _, t, _ => .ok t
  | n + 1, i, t, s =>
    let r := getInt s
    if r.2.eof then .error
    else do
      let cl ← Run.use r.1
      if cl < 0 ∨ cl ≥ portalleafs then .error
      else
        let t' ← Run.writeAt t (i + 1) cl
        readAm portalleafs n (i + 1) t' r.2

/-- The identity map (common/prtfile.cc:128-131). -/
def identityMap : Nat → Nat → List Int → Run (List Int)
  | 0, _, t => .ok t
  | n + 1, i, t => do
    let t' ← Run.writeAt t (i + 1) i
    identityMap n (i + 1) t'

/-- The text of the first line and the stream behind it (`std::getline`). -/
def getLine (f : Text) : Text × TStream :=
  match f.dropWhile (fun c => c ≠ '\n') with
  | [] => (f, ⟨[], f = [], true⟩)
  | _ :: rest => (f.takeWhile (fun c => c ≠ '\n'), ⟨rest, false, false⟩)

/-- A field that keeps its value (zero) when it is not stored. -/
def orZero (o : Option Int) : Int := o.getD 0

/-- The header (common/prtfile.cc:48-81): kind, `portalleafs`, `portalleafs_real`, `numportals` (`none`: not stored). -/
def readHeader (q2 : Bool) (magic : Text) (s : TStream) : Run (Magic × Int × Int × Option Int × TStream) :=
  if magic = [] then .error
  else if magic = "PRT1".toList then
    let a := getInt s
    let b := getInt a.2
    .ok (.prt1, orZero a.1, if q2 then 0 else orZero a.1, b.1, b.2)
  else if magic = "PRT2".toList then
    if q2 then .error
    else
      let a := getInt s
      let b := getInt a.2
      let d := getInt b.2
      .ok (.prt2, orZero b.1, orZero a.1, d.1, d.2)
  else if magic = "PRT1-AM".toList then
    if q2 then .error
    else
      let a := getInt s
      let b := getInt a.2
      let d := getInt b.2
      .ok (.am, orZero a.1, orZero d.1, b.1, d.2)
  else .error

/-- The cluster map (common/prtfile.cc:118-174). -/
def readMap (q2 : Bool) (magic : Magic) (portalleafs real : Int) (s : TStream) : Run (List Int) :=
  if q2 then .ok []
  else if portalleafs = real then do
    let t ← table portalleafs
    identityMap portalleafs.toNat 0 t
  else
    match magic with
    | .prt2 => do
      let t ← table real
      readClusters real portalleafs.toNat 0 t s
    | .am => do
      let t ← table portalleafs
      readAm portalleafs real.toNat 0 t s
    | .prt1 => .error

/-- `LoadPrtFile` (common/prtfile.cc:35-180). -/
def loadPrt {V : Type} (c : Coord V) (q2 : Bool) (f : Text) : Run (PrtFile V) := do
  let l := getLine f
  let h ← readHeader q2 l.1 l.2
  let n ← Run.use h.2.2.2.1
  let ps ← getPortals c h.2.1 n.toNat h.2.2.2.2
  let m ← readMap q2 h.1 h.2.1 h.2.2.1 ps.2
  pure ⟨h.2.1, h.2.2.1, ps.1, m⟩

/-! ### Building the leafs of vis -/

/-- The lists of portals of the leafs (`leaf_t::portals`), and the portals (each as the leaf it leads to). -/
structure VisLeafs where
  leafs : List (List Nat)
  dest : List Int
  deriving DecidableEq

/-- `leafs[leafnum].portals.push_back(p)` (vis/vis.cc:641-642, 653-654). -/
def pushPortal (leafs : List (List Nat)) (leafnum : Int) (p : Nat) : Run (List (List Nat)) :=
  if 0 ≤ leafnum then do
    let ps ← Run.readAt leafs leafnum.toNat
    Run.writeAt leafs leafnum.toNat (ps ++ [p])
  else .ub

/-- The loop of `LoadPortals` over the portals of the file (vis/vis.cc:629-669). -/
def addPortals {V : Type} : List (PrtPortal V) → VisLeafs → Run VisLeafs
  | [], v => .ok v
  | p :: ps, v => do
    let l0 ← pushPortal v.leafs p.leaf0 v.dest.length
    let l1 ← pushPortal l0 p.leaf1 (v.dest.length + 1)
    addPortals ps ⟨l1, v.dest ++ [p.leaf1, p.leaf0]⟩

/-- Copying the clusters to the leafs of the BSP file (vis/vis.cc:672-675). `dleafs`: the clusters of the leafs of the
BSP file; `infos`: the elements of `dleafinfos` from `i` on. -/
def copyClusters : Nat → List Int → List Int → Run (List Int)
  | _, [], dleafs => .ok dleafs
  | i, cl :: infos, dleafs => do
    let d ← Run.writeAt dleafs i cl
    copyClusters (i + 1) infos d

/-- `LoadPortals` (vis/vis.cc:584-676) for the leafs: `leafs.resize(portalleafs)`, and the clusters of the leafs of the
BSP file. -/
def loadPortals {V : Type} (q2 : Bool) (f : PrtFile V) (dleafs : List Int) : Run (VisLeafs × List Int) :=
  if f.portalleafs < 0 then .error
  else do
    let v ← addPortals f.portals ⟨List.replicate f.portalleafs.toNat [], []⟩
    if q2 then pure (v, dleafs)
    else
      let d ← copyClusters 1 (f.clusters.drop 1) dleafs
      pure (v, d)

end Verif.Prt
