import Verif.Common.Outcome

/-!
Model of the visibility row codec of `common/bsputils.cc`.
-/

namespace Verif.VisRow

open Verif

/-- Inner loop of `CompressRow`, common/bsputils.cc:597-602.  `rest` are the bytes
`vis[i..numbytes)`, `rep` the repeat counter; returns the final counter and the bytes left. -/
def countRun : List UInt8 → Nat → Nat × List UInt8
  | [], rep => (rep, [])
  | b :: bs, rep => if b ≠ 0 ∨ rep = 255 then (rep, b :: bs) else countRun bs (rep + 1)

theorem countRun_length_le (bs : List UInt8) (rep : Nat) :
    (countRun bs rep).2.length ≤ bs.length := by
  induction bs generalizing rep with
  | nil => simp [countRun]
  | cons b bs ih =>
    unfold countRun
    split
    · simp
    · exact Nat.le_succ_of_le (ih _)

/-- `CompressRow`, common/bsputils.cc:586-607.  The argument is the byte array
`vis[0..numbytes)`, the result the bytes appended to the output iterator.  The `int32_t`
counter is stored into a `uint8_t`, modelled by `UInt8.ofNat`. -/
def compressRow : List UInt8 → List UInt8
  | [] => []
  | b :: bs =>
    if b ≠ 0 then b :: compressRow bs
    else b :: UInt8.ofNat (countRun bs 1).1 :: compressRow (countRun bs 1).2
termination_by row => row.length
decreasing_by
  · simp
  · have := countRun_length_le bs 1
    simp only [List.length_cons]; omega

/-- How `DecompressVis` ended: normally, or through one of its four early returns
(common/bsputils.cc:666-670, 678-682, 685-688, 691-695). -/
inductive Status where
  | full | underrun | underrunInRun | zeroRepeat | overrun
  deriving Repr, DecidableEq

/-- The zero-fill loop of `DecompressVis`, common/bsputils.cc:690-697: `c` zeros still to be
written at `out + op`.  Result: `true` if it returned early (output overrun). -/
def zeroFill : Nat → List UInt8 → Nat → Outcome (Bool × List UInt8 × Nat)
  | 0, out, op => .ok (false, out, op)
  | c + 1, out, op =>
    if op = out.length then .ok (true, out, op)
    else do
      let out' ← Outcome.writeAt out op 0
      zeroFill c out' (op + 1)

/-- `DecompressVis`, common/bsputils.cc:661-699.  `inp` is the memory from the start of the
lump to `inend`, `ip` the read position, `out` the output buffer up to `outend`, `op` the write
position.  Reads and writes outside these ranges are the outcome `ub`.
Result: how it ended, the output buffer, the final read and write positions. -/
def decompress (inp : List UInt8) (ip : Nat) (out : List UInt8) (op : Nat) :
    Outcome (Status × List UInt8 × Nat × Nat) :=
  if op < out.length then
    if ip = inp.length then .ok (.underrun, out, ip, op)
    else
      match _h : inp[ip]? with
      | none => .ub
      | some c =>
        if c ≠ 0 then do
          let out' ← Outcome.writeAt out op c
          decompress inp (ip + 1) out' (op + 1)
        else if ip + 1 = inp.length then .ok (.underrunInRun, out, ip + 1, op)
        else
          match inp[ip + 1]? with
          | none => .ub
          | some run =>
            if run = 0 then .ok (.zeroRepeat, out, ip + 2, op)
            else do
              let r ← zeroFill run.toNat out op
              if r.1 then .ok (.overrun, r.2.1, ip + 2, r.2.2)
              else decompress inp (ip + 2) r.2.1 r.2.2
  else .ok (.full, out, ip, op)
termination_by inp.length - ip
decreasing_by
  all_goals
    have := (List.getElem?_eq_some_iff.mp _h).1
    omega

/-- One decompressed row as produced by `DecompressAllVis`, common/bsputils.cc:725-729 and
750-753: a zero-initialised buffer of `size` bytes, filled from offset `ofs` of the lump.
The caller has checked `ofs < lump.size()` (lines 720 and 745); the model is only asked about
`ofs ≤ lump.length`. -/
def decompressRow (lump : List UInt8) (ofs size : Nat) : Outcome (List UInt8) := do
  let r ← decompress lump ofs (List.replicate size 0) 0
  pure r.2.1

end Verif.VisRow
