import Verif.Common.Outcome
import Verif.Common.LE

/-!
Model of the leaf bitmaps of vis (`include/vis/leafbits.hh`) and of their compression in the
state file (`vis/state.cc`).
-/

namespace Verif.VisState

open Verif Outcome



/-- `leafbits_t`, include/vis/leafbits.hh:27-40: an array of 32-bit blocks. -/
abbrev LeafBits := List (BitVec 32)

/-- `leafbits_t::block_size`, include/vis/leafbits.hh:32 (`mask` is 31, `shift` is 5, lines
37-38). -/
def blockSize (size : Nat) : Nat := (size + 31) >>> 5

/-- `leafbits_t::resize` / the sized constructor, include/vis/leafbits.hh:42-46 and 81: a
zero-filled array. -/
def zeroBits (size : Nat) : LeafBits := List.replicate (blockSize size) 0

/-- `leafbits_t::operator[]`, include/vis/leafbits.hh:89; `ub` outside the array. -/
def getBit (lb : LeafBits) (i : Nat) : Outcome Bool := do
  let w ← readAt lb (i >>> 5)
  pure (w.getLsbD (i % 32))

/-- `numbytes = (portalleafs + 7) >> 3`, vis/state.cc:63, 99, 125, 245. -/
def numBytes (portalleafs : Nat) : Nat := (portalleafs + 7) >>> 3

/-- `(in.data()[i >> (shift - 3)] >> ((i << 3) & mask)) & 0xff`, vis/state.cc:65-66, 75-76 and
91-92. -/
def byteAt (lb : LeafBits) (i : Nat) : Outcome Byte := do
  let w ← readAt lb (i >>> 2)
  pure ((w >>> ((i <<< 3) % 32)).truncate 8)

/-- Reading the bytes `0..n` of a bitmap in order (the reads of vis/state.cc:64-80, 90-93 have
no side effect, so the model performs them before the compression loop). -/
def bytesOf (lb : LeafBits) (i : Nat) : Nat → Outcome (List Byte)
  | 0 => .ok []
  | n + 1 => do
    let b ← byteAt lb i
    let bs ← bytesOf lb (i + 1) n
    pure (b :: bs)

/-- `*dst++ = v` into an output buffer of `cap` bytes (vis/state.cc:67, 81, 92; the buffers are
allocated in `SaveVisState`, vis/state.cc:153-154); `ub` if the buffer is full. -/
def push (cap : Nat) (out : List Byte) (v : Byte) : Outcome (List Byte) :=
  if out.length < cap then .ok (out ++ [v]) else .ub

/-- The repeat-counting loop, vis/state.cc:73-80. -/
def countRun (val : Byte) : List Byte → Nat → Nat × List Byte
  | [], rep => (rep, [])
  | b :: bs, rep => if b ≠ val ∨ rep = 255 then (rep, b :: bs) else countRun val bs (rep + 1)

theorem countRun_length_le (val : Byte) (bs : List Byte) (rep : Nat) :
    (countRun val bs rep).2.length ≤ bs.length := by
  induction bs generalizing rep with
  | nil => simp [countRun]
  | cons b bs ih =>
    unfold countRun
    split
    · simp
    · exact Nat.le_succ_of_le (ih _)

/-- The main loop of `CompressBits`, vis/state.cc:64-83.  `rest` are the bytes `i..numbytes`,
`out` the bytes `out..dst`. -/
def compressLoop (cap : Nat) (rest out : List Byte) : Outcome (List Byte) :=
  match rest with
  | [] => .ok out
  | val :: bs =>
    if out.length < cap then do
      let out ← push cap out val
      if val ≠ 0 ∧ val ≠ 0xff then compressLoop cap bs out
      else if out.length ≥ cap then pure out
      else do
        let out ← push cap out (BitVec.ofNat 8 (countRun val bs 1).1)
        compressLoop cap (countRun val bs 1).2 out
    else .ok out
termination_by rest.length
decreasing_by
  · simp
  · have := countRun_length_le val bs 1
    simp only [List.length_cons]; omega

/-- The raw copy, vis/state.cc:89-93. -/
def rawCopy (cap : Nat) : List Byte → List Byte → Outcome (List Byte)
  | [], out => .ok out
  | b :: bs, out => do
    let out ← push cap out b
    rawCopy cap bs out

/-- `CompressBits`, vis/state.cc:57-95.  The result is the list of bytes that the caller then
writes to the file, that is the first `return value` bytes of the buffer. -/
def compressBits (portalleafs : Nat) (lb : LeafBits) : Outcome (List Byte) := do
  let bytes ← bytesOf lb 0 (numBytes portalleafs)
  let out ← compressLoop (numBytes portalleafs) bytes []
  if out.length < numBytes portalleafs then pure out
  else rawCopy (numBytes portalleafs) bytes []

/-- `dst.data()[i >> (shift - 3)] |= (uint32_t)val << ((i << 3) & mask)`, vis/state.cc:105-106,
117-118, 129-130. -/
def orByte (dst : LeafBits) (i : Nat) (val : Byte) : Outcome LeafBits := do
  let w ← readAt dst (i >>> 2)
  writeAt dst (i >>> 2) (w ||| (val.zeroExtend 32 <<< ((i <<< 3) % 32)))

/-- The copy loop `while (--rep)`, vis/state.cc:115-119, after the first decrement; returns the
bitmap and the new `i`. -/
def repeatByte (val : Byte) : Nat → LeafBits → Nat → Outcome (LeafBits × Nat)
  | 0, dst, i => .ok (dst, i)
  | k + 1, dst, i => do
    let dst ← orByte dst (i + 1) val
    repeatByte val k dst (i + 1)

/-- The loop of `DecompressBits`, vis/state.cc:103-120.  `src` is the whole source buffer, `sp`
the read position.  A repeat count of 0 makes `--rep` negative and the loop writes far outside
the bitmap: outcome `ub`. -/
def decompressLoop (numbytes : Nat) (src : List Byte) (dst : LeafBits) (i sp : Nat) :
    Outcome LeafBits :=
  if i < numbytes then
    match _h : src[sp]? with
    | none => .ub
    | some val => do
      let dst ← orByte dst i val
      if val ≠ 0 ∧ val ≠ 0xff then decompressLoop numbytes src dst (i + 1) (sp + 1)
      else
        match src[sp + 1]? with
        | none => .ub
        | some rep =>
          if i + rep.toNat > numbytes then .error
          else if rep.toNat = 0 then .ub
          else do
            let r ← repeatByte val (rep.toNat - 1) dst i
            decompressLoop numbytes src r.1 (r.2 + 1) (sp + 2)
  else .ok dst
termination_by src.length - sp
decreasing_by
  all_goals
    have := (List.getElem?_eq_some_iff.mp _h).1
    omega

/-- `DecompressBits`, vis/state.cc:97-121. -/
def decompressBits (portalleafs : Nat) (src : List Byte) : Outcome LeafBits :=
  decompressLoop (numBytes portalleafs) src (zeroBits portalleafs) 0 0

/-- The loop of `CopyLeafBits`, vis/state.cc:128-131. -/
def copyLoop (src : List Byte) : Nat → LeafBits → Nat → Outcome LeafBits
  | 0, dst, _ => .ok dst
  | n + 1, dst, i => do
    let v ← readAt src i
    let dst ← orByte dst i v
    copyLoop src n dst (i + 1)

/-- `CopyLeafBits`, vis/state.cc:123-132. -/
def copyLeafBits (portalleafs : Nat) (src : List Byte) : Outcome LeafBits :=
  copyLoop src (numBytes portalleafs) (zeroBits portalleafs) 0

/-- Reading back one bitmap of `len` bytes in `LoadVisState`, vis/state.cc:256-263 and 268-273:
`buf` is the `numbytes` buffer, whose first `len` bytes were just read from the file. -/
def loadBits (portalleafs len : Nat) (buf : List Byte) : Outcome LeafBits :=
  if len < numBytes portalleafs then decompressBits portalleafs buf
  else copyLeafBits portalleafs buf

/-- A bitmap allocated for `portalleafs` leafs. -/
def Sized (portalleafs : Nat) (lb : LeafBits) : Prop := lb.length = blockSize portalleafs

end Verif.VisState
