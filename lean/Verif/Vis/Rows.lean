import Verif.VisRow.Model
import Verif.Vis.Sched

/-!
Model of the last stage of vis: `ClusterFlow` and the loop of `CalcVis` over it (vis/vis.cc), and
`CalcPHS` (vis/soundpvs.cc).
-/

namespace Verif.Vis.Rows

open Verif

/-- `nth_bit(k)` stored in a byte. -/
def nthBit (k : Nat) : UInt8 := UInt8.ofNat (2 ^ k)

/-- Bit `i` of a row: bit `i & 7` of byte `i >> 3`. -/
def bitAt (row : List UInt8) (i : Nat) : Bool :=
  match row[i / 8]? with
  | some b => b.toNat.testBit (i % 8)
  | none => false

/-- Collecting the portals' `visbits` into the buffer (vis/vis.cc:398-405); a portal that is not
done is an error. -/
def collect : List (PStat × (Nat → Bool)) → (Nat → Bool) → Outcome (Nat → Bool)
  | [], buf => .ok buf
  | (st, v) :: r, buf => if st ≠ .done then .error else collect r (fun L => buf L || v L)

/-- The loop writing the row (vis/vis.cc:420-425, 428-433): leaf numbers `i .. n-1`, `see i` is the
value of `buffer[...]`, an outcome because the cluster number stored in a leaf may be bad. -/
def expand (see : Nat → Outcome Bool) : (todo i : Nat) → List UInt8 → Outcome (List UInt8)
  | 0, _, row => .ok row
  | todo + 1, i, row => do
    let b ← see i
    if b then do
      let x ← Outcome.readAt row (i / 8)
      let row' ← Outcome.writeAt row (i / 8) (x ||| nthBit (i % 8))
      expand see todo (i + 1) row'
    else expand see todo (i + 1) row

/-- What `ClusterFlow` needs to know about the map: number of clusters, number of leafs with a bit in
a row, whether rows are per cluster (Quake II), the cluster of leaf `i + 1` (`dleafs[i + 1].cluster`),
and the portals of each cluster. -/
structure Map where
  q2 : Bool
  portalleafs : Nat
  portalleafsReal : Nat
  cluster : Nat → Int
  portals : Nat → List (PStat × (Nat → Bool))

/-- Bits per row. -/
def Map.rowBits (m : Map) : Nat := if m.q2 then m.portalleafs else m.portalleafsReal

/-- `leafbytes` / `leafbytes_real` (vis/vis.cc:607, 613): bytes reserved per row. -/
def Map.rowSpace (m : Map) : Nat := (m.rowBits + 63) / 64 * 8

/-- `buffer[...]` in the row loop (vis/vis.cc:421, 429): an index outside the `portalleafs` bits is
undefined behaviour. -/
def Map.look (m : Map) (buf : Nat → Bool) (i : Nat) : Outcome Bool :=
  if m.q2 then .ok (buf i)
  else if 0 ≤ m.cluster i ∧ m.cluster i < m.portalleafs then .ok (buf (m.cluster i).toNat)
  else .ub

/-- `ClusterFlow` up to compression (vis/vis.cc:393-466): the row bytes that get compressed.  The
buffer is all zero on entry (`CalcVis` clears it), the row's part of `uncompressed` is zero. -/
def clusterRow (m : Map) (c : Nat) : Outcome (List UInt8) := do
  let buf ← collect (m.portals c) (fun _ => false)
  let row ← expand (m.look (fun L => if L = c then true else buf L)) m.rowBits 0
    (List.replicate m.rowSpace 0)
  pure (row.take ((m.rowBits + 7) / 8))

/-- The output of `CalcVis`: the vis lump, the offset stored for each cluster and for each leaf. -/
structure Out where
  vismap : List UInt8
  clusterOfs : Nat → Option Nat
  leafOfs : Nat → Option Nat

/-- The rest of `ClusterFlow` (vis/vis.cc:468-479): remember the offset, append the compressed row.
In Quake II only the cluster's offset is set. -/
def clusterFlow (m : Map) (o : Out) (c : Nat) : Outcome Out := do
  let row ← clusterRow m c
  pure { vismap := o.vismap ++ VisRow.compressRow row
         clusterOfs := fun d => if d = c then some o.vismap.length else o.clusterOfs d
         leafOfs := fun i => if !m.q2 && i < m.portalleafsReal && m.cluster i = c
           then some o.vismap.length else o.leafOfs i }

/-- The loop of `CalcVis` over all clusters (vis/vis.cc:552-556). -/
def calcVis (m : Map) : (todo c : Nat) → Out → Outcome Out
  | 0, _, o => .ok o
  | todo + 1, c, o => do
    let o' ← clusterFlow m o c
    calcVis m todo (c + 1) o'

/-- `CalcVis` from its first cluster. -/
def calcVisAll (m : Map) : Outcome Out :=
  calcVis m m.portalleafs 0 { vismap := [], clusterOfs := fun _ => none, leafOfs := fun _ => none }

/-! ### `CalcPHS` -/

/-- `dest[l] |= src[l]` for `l < leaflongs`, a `long` having `w` bytes (vis/soundpvs.cc:203-206). -/
def orLongs (w : Nat) (dest src : List UInt8) : List UInt8 :=
  dest.mapIdx fun j b => if j < dest.length / w * w then b ||| src[j]?.getD 0 else b

/-- The state of the buffers of `CalcPHS`. -/
structure PHSState where
  bits : List UInt8
  ofs : List Nat
  buf : List UInt8
  buf2 : List UInt8

/-- `DecompressVis` of one row of the lump into an existing buffer (vis/soundpvs.cc:183, 201). -/
def decompressInto (bits : List UInt8) (ofs : Nat) (buf : List UInt8) : Outcome (List UInt8) := do
  let r ← VisRow.decompress bits ofs buf 0
  pure r.2.1

/-- The loops over the bits of the row (vis/soundpvs.cc:189-208): bit numbers `i ..` of `orig`.
`n` is `portalleafs`, `pvs` the offsets of the PVS rows. -/
def phsBits (w n : Nat) (pvs : Nat → Nat) (orig : List UInt8) : (todo i : Nat) → PHSState →
    Outcome PHSState
  | 0, _, s => .ok s
  | todo + 1, i, s =>
    if bitAt orig i then
      if i ≥ n then .error
      else do
        let buf2 ← decompressInto s.bits (pvs i) s.buf2
        phsBits w n pvs orig todo (i + 1) { s with buf2 := buf2, buf := orLongs w s.buf buf2 }
    else phsBits w n pvs orig todo (i + 1) s

/-- The loop over the clusters (vis/soundpvs.cc:180-223). -/
def phsClusters (w n : Nat) (pvs : Nat → Nat) : (todo c : Nat) → PHSState → Outcome PHSState
  | 0, _, s => .ok s
  | todo + 1, c, s => do
    let orig ← decompressInto s.bits (pvs c) s.buf
    let s' ← phsBits w n pvs orig (orig.length * 8) 0 { s with buf := orig }
    phsClusters w n pvs todo (c + 1)
      { s' with ofs := s'.ofs ++ [s'.bits.length], bits := s'.bits ++ VisRow.compressRow s'.buf }

/-- `CalcPHS` (vis/soundpvs.cc:164-227): the new lump and the offsets of the PHS rows. -/
def calcPHS (w n : Nat) (pvs : Nat → Nat) (bits : List UInt8) : Outcome (List UInt8 × List Nat) := do
  let zero := List.replicate ((n + 7) / 8) 0
  let s ← phsClusters w n pvs n 0 { bits := bits, ofs := [], buf := zero, buf2 := zero }
  pure (s.bits, s.ofs)

end Verif.Vis.Rows
