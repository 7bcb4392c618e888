import Verif.VisState.Bits

/-!
Model of the vis state file: `SaveVisState` and `LoadVisState` of `vis/state.cc`, and of the
file-system steps around them.
-/

namespace Verif.VisState

open Verif Outcome

/-- `pstatus_t`, include/vis/vis.hh:35-40. -/
inductive Status where
  | none | working | done
  deriving Repr, DecidableEq

/-- Numeric value of a `pstatus_t`, include/vis/vis.hh:37-39. -/
def Status.code : Status → BitVec 32
  | .none => 0
  | .working => 1
  | .done => 2

/-- The part of `visportal_t` that is saved: status, bitmaps and counters. -/
structure Portal where
  status : Status
  mightsee : LeafBits
  visbits : LeafBits
  nummightsee : BitVec 32
  numcansee : BitVec 32
  deriving Repr, DecidableEq

/-- `out <= uint32_t` on a little-endian stream, include/common/cmdlib.hh:238-246. -/
def putU32 (v : BitVec 32) : List Byte := leEncode 4 v.toNat

/-- `VIS_STATE_VERSION`, vis/state.cc:33. -/
def version : BitVec 32 := 0x54595231

/-- One portal record of `SaveVisState`, vis/state.cc:156-175. -/
def savePortal (portalleafs : Nat) (p : Portal) : Outcome (List Byte) := do
  let might ← compressBits portalleafs p.mightsee
  let vis ← if p.status = .done then compressBits portalleafs p.visbits else .ok []
  pure (putU32 p.status.code ++ putU32 (BitVec.ofNat 32 might.length)
    ++ putU32 (BitVec.ofNat 32 vis.length) ++ putU32 p.nummightsee ++ putU32 p.numcansee
    ++ might ++ vis)

/-- The portal loop of `SaveVisState`, vis/state.cc:156-175. -/
def savePortals (portalleafs : Nat) : List Portal → Outcome (List Byte)
  | [] => .ok []
  | p :: ps => do
    let a ← savePortal portalleafs p
    let b ← savePortals portalleafs ps
    pure (a ++ b)

/-- The bytes `SaveVisState` writes, vis/state.cc:143-175.  `numportals` is the number of
portals in the portal file, `ps` the in-memory portals (two per file portal). -/
def saveBytes (numportals portalleafs : Nat) (testlevel time : BitVec 32) (ps : List Portal) :
    Outcome (List Byte) := do
  let body ← savePortals portalleafs ps
  pure (putU32 version ++ putU32 (BitVec.ofNat 32 numportals)
    ++ putU32 (BitVec.ofNat 32 portalleafs) ++ putU32 testlevel ++ putU32 time ++ body)

/-- `in.read(dst, n)` where `dst` holds `old` before the call: at most the bytes left in the
stream are stored, the rest of `dst` keeps its value.  `LoadVisState` never checks the stream
state (vis/state.cc:229-280), so a short read silently keeps stale data.  After a short read the
stream is exhausted, so later reads store nothing, which the model reproduces. -/
def readInto (old s : List Byte) : List Byte × List Byte :=
  (s.take old.length ++ old.drop s.length, s.drop old.length)

/-- `in >= uint32_t`, include/common/cmdlib.hh:395-403. -/
def getU32 (old : BitVec 32) (s : List Byte) : BitVec 32 × List Byte :=
  let r := readInto (putU32 old) s
  (BitVec.ofNat 32 (leDecode r.1), r.2)

/-- `dportal_t`, vis/state.cc:46-55, reused for every portal by `LoadVisState`. -/
structure PState where
  status : BitVec 32
  might : BitVec 32
  vis : BitVec 32
  nummightsee : BitVec 32
  numcansee : BitVec 32
  deriving Repr, DecidableEq

/-- `in >= pstate`, vis/state.cc:250 with the field order of line 54. -/
def getPState (old : PState) (s : List Byte) : PState × List Byte :=
  let a := getU32 old.status s
  let b := getU32 old.might a.2
  let c := getU32 old.vis b.2
  let d := getU32 old.nummightsee c.2
  let e := getU32 old.numcansee d.2
  (⟨a.1, b.1, c.1, d.1, e.1⟩, e.2)

/-- `in.read(compressed.data(), len)`, vis/state.cc:256 and 268; `compressed` has `numbytes`
elements, a longer read writes outside it. -/
def readCompressed (len : Nat) (buf s : List Byte) : Outcome (List Byte × List Byte) :=
  if len ≤ buf.length then
    let r := readInto (buf.take len) s
    .ok (r.1 ++ buf.drop len, r.2)
  else .ub

/-- `static_cast<pstatus_t>(pstate.status)` followed by the reset of portals in progress,
vis/state.cc:252 and 277-279.  Casting a value outside the enumeration's range (0..3) is `ub`;
value 3 is no enumerator and is not modelled further (also `ub`). -/
def loadStatus (c : BitVec 32) : Outcome Status :=
  if c = 0 then .ok .none
  else if c = 1 then .ok .none
  else if c = 2 then .ok .done
  else .ub

/-- One iteration of the portal loop of `LoadVisState`, vis/state.cc:249-280.  The mutable
state is `pstate`, `compressed` and the stream. -/
def loadPortal (portalleafs : Nat) (old : PState) (buf s : List Byte) :
    Outcome (Portal × PState × List Byte × List Byte) := do
  let (pst, s) := getPState old s
  let (buf, s) ← readCompressed pst.might.toNat buf s
  let might ← loadBits portalleafs pst.might.toNat buf
  let st ← loadStatus pst.status
  if pst.vis = 0 then
    pure (⟨st, might, zeroBits portalleafs, pst.nummightsee, pst.numcansee⟩, pst, buf, s)
  else do
    let (buf, s) ← readCompressed pst.vis.toNat buf s
    let vis ← loadBits portalleafs pst.vis.toNat buf
    pure (⟨st, might, vis, pst.nummightsee, pst.numcansee⟩, pst, buf, s)

/-- The portal loop of `LoadVisState` over `n` in-memory portals, vis/state.cc:249-280. -/
def loadPortals (portalleafs : Nat) : Nat → PState → List Byte → List Byte →
    Outcome (List Portal)
  | 0, _, _, _ => .ok []
  | n + 1, old, buf, s => do
    let (p, pst, buf, s) ← loadPortal portalleafs old buf s
    let ps ← loadPortals portalleafs n pst buf s
    pure (p :: ps)

/-- `LoadVisState` from the point where the file is open, vis/state.cc:229-282.
`garbage`/`pgarbage` are the indeterminate initial contents of the local structures `state` and
`pstate` (vis/state.cc:201-202).  The elapsed time and the test level are read and otherwise
ignored (line 243 only moves the start time). -/
def loadBytes (numportals portalleafs : Nat) (garbage : BitVec 32) (pgarbage : PState)
    (file : List Byte) : Outcome (List Portal) := do
  let (ver, s) := getU32 garbage file
  let (np, s) := getU32 garbage s
  let (nl, s) := getU32 garbage s
  let (_, s) := getU32 garbage s
  let (_, s) := getU32 garbage s
  if ver ≠ version then .error
  else if np ≠ BitVec.ofNat 32 numportals ∨ nl ≠ BitVec.ofNat 32 portalleafs then .error
  else
    let buf := List.replicate (numBytes portalleafs) 0
    loadPortals portalleafs (2 * numportals) pgarbage buf s

/-! ### File-system steps -/

/-- The two files vis uses: `statefile` (`.vis`) and `statetmpfile` (`.vi0`); `none` if absent.
Only their contents are modelled, not their time stamps. -/
structure Disk where
  state : Option (List Byte)
  tmp : Option (List Byte)
  deriving Repr, DecidableEq

/-- The disk contents a crash can leave behind while `SaveVisState` (vis/state.cc:134-188) writes
`new`: opening truncates the temporary file, the data reaches it as a growing prefix (lines
140-177), the old state file is removed (line 181), the temporary file is renamed (line 185). -/
inductive CrashDuringSave (d : Disk) (new : List Byte) : Disk → Prop
  | before : CrashDuringSave d new d
  | writing (k : Nat) : CrashDuringSave d new ⟨d.state, some (new.take k)⟩
  | removed : CrashDuringSave d new ⟨none, some new⟩
  | finished : CrashDuringSave d new ⟨some new, none⟩

/-- Which file contents the next run resumes from, vis/state.cc:208-221 (`nostate` off, and the
portal file is not newer): the state file, or else the temporary file. -/
def resumeFrom (d : Disk) : Option (List Byte) :=
  match d.state with
  | some s => some s
  | none => d.tmp

end Verif.VisState
