import Verif.VisState.BitsLemmas

/-!
C03, C04: compression of the leaf bitmaps in the vis state file.
-/

namespace Verif.VisState

open Verif Outcome

/-- **C04.**  Compressing a bitmap allocated for `n` leafs never writes outside a buffer of
`(n + 7) / 8` bytes, never reads outside the bitmap, and the result fits that buffer. -/
theorem compressBits_fits (n : Nat) (lb : LeafBits) (h : Sized n lb) :
    ∃ out, compressBits n lb = .ok out ∧ out.length ≤ (n + 7) / 8 := by
  have hle := numBytes_le n
  obtain ⟨bs, b1, b2, _⟩ := bytesOf_ok lb 0 (numBytes n) (by rw [h]; omega)
  obtain ⟨res, r1, r2, _⟩ := compressLoop_spec (numBytes n) bs.length bs [] (by omega) (by simp)
  have hraw := rawCopy_ok (numBytes n) bs [] (by simp [b2])
  rw [← numBytes_eq]
  simp only [compressBits, b1, ok_bind, r1, hraw]
  split
  · exact ⟨res, rfl, r2⟩
  · exact ⟨bs, by simp, by omega⟩

/-- Loading what was saved gives a bitmap with the same bytes. -/
theorem loadBits_compressBits (n : Nat) (lb : LeafBits) (h : Sized n lb) (out buf : List Byte)
    (hc : compressBits n lb = .ok out) (hbuf : ∃ stale, buf = out ++ stale) :
    ∃ lb', loadBits n out.length buf = .ok lb' ∧ Sized n lb' ∧
      ∀ k, k < numBytes n → byteAt lb' k = byteAt lb k := by
  obtain ⟨stale, hbuf⟩ := hbuf
  have hle := numBytes_le n
  have hz : (zeroBits n).length = blockSize n := by simp [zeroBits]
  obtain ⟨bs, b1, b2, b3⟩ := bytesOf_ok lb 0 (numBytes n) (by rw [h]; omega)
  obtain ⟨res, r1, r2, r3⟩ := compressLoop_spec (numBytes n) bs.length bs [] (by omega) (by simp)
  have hraw := rawCopy_ok (numBytes n) bs [] (by simp [b2])
  simp only [compressBits, b1, ok_bind, r1, hraw] at hc
  by_cases hlt : res.length < numBytes n
  · rw [if_pos hlt] at hc
    simp only [pure_eq, Outcome.ok.injEq] at hc
    subst hc
    have hres : res = rle bs := by simpa using r3 hlt
    obtain ⟨d, d1, d2, d3⟩ := decompressLoop_ok bs bs.length bs [] buf (zeroBits n) 0
      (Nat.le_refl _) rfl ⟨stale, by simp [hbuf, hres]⟩ (by omega) (filled_zero n bs)
    refine ⟨d, ?_, by rw [Sized]; omega, ?_⟩
    · simp only [loadBits, hlt, if_true, decompressBits]
      rw [← b2]; simpa using d1
    · intro k hk
      rw [d3.1 k (by omega) (by omega), ← b3 k (by omega)]; simp
  · rw [if_neg hlt] at hc
    simp only [List.nil_append, Outcome.ok.injEq] at hc
    subst hc
    obtain ⟨d, d1, d2, d3⟩ := copyLoop_ok buf bs (numBytes n) 0 (zeroBits n)
      (by intro k hk; rw [hbuf, List.getElem?_append_left hk, List.getElem?_eq_getElem hk])
      (by omega) (by omega) (filled_zero n bs)
    refine ⟨d, ?_, by rw [Sized]; omega, ?_⟩
    · simp only [loadBits, b2, Nat.lt_irrefl, if_false, copyLeafBits]
      exact d1
    · intro k hk
      rw [d3.1 k (by omega) (by omega), ← b3 k (by omega)]; simp

/-- **C03.**  For every leaf count `n` and every bitmap for `n` leafs: the bytes written for it,
read back into the (possibly dirty) `numbytes` buffer, decode to a bitmap in which every leaf's
bit is the original one. -/
theorem bitmap_roundtrip (n : Nat) (lb : LeafBits) (h : Sized n lb) :
    ∃ out, compressBits n lb = .ok out ∧
      ∀ stale : List Byte, ∃ lb', loadBits n out.length (out ++ stale) = .ok lb' ∧ Sized n lb' ∧
        ∀ leaf, leaf < n → getBit lb' leaf = getBit lb leaf := by
  obtain ⟨out, ho, _⟩ := compressBits_fits n lb h
  refine ⟨out, ho, fun stale => ?_⟩
  obtain ⟨lb', h1, h2, h3⟩ := loadBits_compressBits n lb h out (out ++ stale) ho ⟨stale, rfl⟩
  refine ⟨lb', h1, h2, fun leaf hl => ?_⟩
  have hk : leaf / 8 < numBytes n := by rw [numBytes_eq]; omega
  refine getBit_eq_of_byteAt_eq (h3 _ hk) (byteAt_ok ?_)
  rw [h, blockSize_eq]; omega

/-- Bits of a properly sized bitmap are defined (so the equality above is not `ub = ub`). -/
theorem getBit_defined (n : Nat) (lb : LeafBits) (h : Sized n lb) (leaf : Nat) (hl : leaf < n) :
    ∃ b, getBit lb leaf = .ok b := by
  have : leaf >>> 5 < lb.length := by
    rw [h, blockSize_eq]; simp only [Nat.shiftRight_eq_div_pow]; omega
  exact ⟨_, by rw [getBit, readAt_ok this]; rfl⟩

-- 70 leafs (9 bytes, 3 blocks): compressible and incompressible bitmaps
example : Sized 70 [0, 0xffffffff, 0x15] := rfl
example : compressBits 70 [0, 0xffffffff, 0x15] = .ok [0, 4, 0xff, 4, 0x15] := by decide +kernel
example : loadBits 70 5 ([0, 4, 0xff, 4, 0x15] ++ [7, 7, 7, 7]) = .ok [0, 0xffffffff, 0x15] := by
  decide +kernel
example : compressBits 70 [0x00ff00ff, 0xff00ff00, 0x15]
    = .ok [0xff, 0, 0xff, 0, 0, 0xff, 0, 0xff, 0x15] := by decide +kernel

end Verif.VisState
