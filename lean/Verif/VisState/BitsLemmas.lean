import Verif.VisState.Bits

namespace Verif.VisState

open Verif Outcome

theorem push_ok {cap : Nat} {out : List Byte} (v : Byte) (h : out.length < cap) :
    push cap out v = .ok (out ++ [v]) := by simp [push, h]

theorem countRun_spec (val : Byte) (bs : List Byte) (rep : Nat) (h : rep ≤ 255) :
    ∃ k, (countRun val bs rep).1 = rep + k ∧ rep + k ≤ 255 ∧
      bs = List.replicate k val ++ (countRun val bs rep).2 := by
  induction bs generalizing rep with
  | nil => exact ⟨0, by simp [countRun], by omega, by simp [countRun]⟩
  | cons b bs ih =>
    unfold countRun
    split
    · exact ⟨0, by simp, by omega, by simp⟩
    · next hc =>
      rw [not_or] at hc
      obtain ⟨hb, hr⟩ := hc
      have hb : b = val := by simpa using hb
      obtain ⟨k, h1, h2, h3⟩ := ih (rep + 1) (by omega)
      refine ⟨k + 1, by omega, by omega, ?_⟩
      rw [List.replicate_succ, hb, List.cons_append, ← h3]

/-- The run-length encoding without any buffer limit. -/
def rle (rest : List Byte) : List Byte :=
  match rest with
  | [] => []
  | val :: bs =>
    if val ≠ 0 ∧ val ≠ 0xff then val :: rle bs
    else val :: BitVec.ofNat 8 (countRun val bs 1).1 :: rle (countRun val bs 1).2
termination_by rest.length
decreasing_by
  · simp
  · have := countRun_length_le val bs 1
    simp only [List.length_cons]; omega

/-- The bounded loop never fails; if it ends below the limit, it produced the full encoding. -/
theorem compressLoop_spec (cap : Nat) : ∀ (n : Nat) (rest out : List Byte), rest.length ≤ n →
    out.length ≤ cap →
    ∃ res, compressLoop cap rest out = .ok res ∧ res.length ≤ cap ∧
      (res.length < cap → res = out ++ rle rest) := by
  intro n
  induction n with
  | zero =>
    intro rest out hn ho
    have : rest = [] := List.length_eq_zero_iff.mp (by omega)
    subst this
    exact ⟨out, by simp [compressLoop], ho, by simp [rle]⟩
  | succ n ih =>
    intro rest out hn ho
    match rest with
    | [] => exact ⟨out, by simp [compressLoop], ho, by simp [rle]⟩
    | val :: bs =>
      simp only [List.length_cons] at hn
      by_cases hlt : out.length < cap
      · rw [compressLoop]
        simp only [hlt, if_true, push_ok val hlt, ok_bind]
        by_cases hv : val ≠ 0 ∧ val ≠ 0xff
        · rw [if_pos hv]
          obtain ⟨res, h1, h2, h3⟩ := ih bs (out ++ [val]) (by omega) (by simp; omega)
          refine ⟨res, h1, h2, fun h => ?_⟩
          rw [h3 h, rle, if_pos hv]; simp
        · rw [if_neg hv]
          by_cases hge : (out ++ [val]).length ≥ cap
          · rw [if_pos hge]
            refine ⟨_, rfl, ?_, ?_⟩
            · simp; omega
            · intro h; omega
          · rw [if_neg hge, push_ok _ (by omega)]
            simp only [ok_bind]
            have hle := countRun_length_le val bs 1
            obtain ⟨res, h1, h2, h3⟩ := ih (countRun val bs 1).2
              (out ++ [val] ++ [BitVec.ofNat 8 (countRun val bs 1).1]) (by omega)
              (by simp at hge ⊢; omega)
            refine ⟨res, h1, h2, fun h => ?_⟩
            rw [h3 h, rle, if_neg hv]; simp
      · rw [compressLoop]
        simp only [hlt, if_false]
        exact ⟨out, rfl, ho, fun h => absurd h hlt⟩

theorem rawCopy_ok (cap : Nat) (bs out : List Byte) (h : out.length + bs.length ≤ cap) :
    rawCopy cap bs out = .ok (out ++ bs) := by
  induction bs generalizing out with
  | nil => simp [rawCopy]
  | cons b bs ih =>
    simp only [List.length_cons] at h
    simp only [rawCopy, push_ok b (show out.length < cap by omega), ok_bind]
    rw [ih (out ++ [b]) (by simp; omega)]
    simp

theorem readAt_ok {α : Type} {l : List α} {i : Nat} (h : i < l.length) :
    readAt l i = .ok l[i] := by
  simp [readAt, h]

theorem byteAt_ok {lb : LeafBits} {i : Nat} (h : i / 4 < lb.length) :
    ∃ b, byteAt lb i = .ok b := by
  have h' : i >>> 2 < lb.length := by simpa [Nat.shiftRight_eq_div_pow] using h
  exact ⟨_, by rw [byteAt, readAt_ok h']; rfl⟩

theorem bytesOf_ok (lb : LeafBits) (i n : Nat) (h : i + n ≤ 4 * lb.length) :
    ∃ bs, bytesOf lb i n = .ok bs ∧ bs.length = n ∧
      ∀ k (hk : k < bs.length), byteAt lb (i + k) = .ok bs[k] := by
  induction n generalizing i with
  | zero => exact ⟨[], rfl, rfl, by simp⟩
  | succ n ih =>
    obtain ⟨bs, h1, h2, h3⟩ := ih (i + 1) (by omega)
    obtain ⟨b, hb⟩ := byteAt_ok (lb := lb) (i := i) (by omega)
    refine ⟨b :: bs, by simp [bytesOf, hb, h1], by simp [h2], ?_⟩
    intro k hk
    cases k with
    | zero => simpa using hb
    | succ k =>
      have := h3 k (by simpa using hk)
      rw [show i + (k + 1) = i + 1 + k by omega]
      simpa using this

theorem numBytes_eq (n : Nat) : numBytes n = (n + 7) / 8 := by
  simp [numBytes, Nat.shiftRight_eq_div_pow]

theorem blockSize_eq (n : Nat) : blockSize n = (n + 31) / 32 := by
  simp [blockSize, Nat.shiftRight_eq_div_pow]

theorem numBytes_le (n : Nat) : numBytes n ≤ 4 * blockSize n := by
  rw [numBytes_eq, blockSize_eq]; omega

/-- OR-ing byte `i` changes exactly byte `i`. -/
theorem orByte_spec (dst : LeafBits) (i : Nat) (v : Byte) (h : i < 4 * dst.length) :
    ∃ dst', orByte dst i v = .ok dst' ∧ dst'.length = dst.length ∧
      (∀ k, k ≠ i → byteAt dst' k = byteAt dst k) ∧
      (∀ b, byteAt dst i = .ok b → byteAt dst' i = .ok (b ||| v)) := by
  have hi : i >>> 2 < dst.length := by
    simp only [Nat.shiftRight_eq_div_pow]; omega
  refine ⟨dst.set (i >>> 2) (dst[i >>> 2] ||| (v.zeroExtend 32 <<< ((i <<< 3) % 32))), ?_, ?_,
    ?_, ?_⟩
  · simp [orByte, readAt_ok hi, writeAt, hi]
  · simp
  · intro k hk
    simp only [byteAt, readAt]
    by_cases hq : k >>> 2 = i >>> 2
    · rw [hq]
      simp only [List.getElem?_set_self hi, List.getElem?_eq_getElem hi, ok_bind, pure_eq]
      congr 1
      apply BitVec.eq_of_getLsbD_eq
      intro j hj
      have e1 : (k <<< 3) % 32 = 8 * (k % 4) := by simp only [Nat.shiftLeft_eq]; omega
      have e2 : (i <<< 3) % 32 = 8 * (i % 4) := by simp only [Nat.shiftLeft_eq]; omega
      have hkm : k % 4 ≠ i % 4 := by
        simp only [Nat.shiftRight_eq_div_pow] at hq; omega
      simp only [BitVec.truncate_eq_setWidth, BitVec.getLsbD_setWidth, BitVec.getLsbD_ushiftRight,
        BitVec.getLsbD_or, BitVec.getLsbD_shiftLeft, e1, e2]
      by_cases hlt : 8 * (k % 4) + j < 8 * (i % 4)
      · simp [hlt]
      · have : ¬ 8 * (k % 4) + j - 8 * (i % 4) < 8 := by omega
        simp [hlt, BitVec.getLsbD_of_ge, show 8 ≤ 8 * (k % 4) + j - 8 * (i % 4) by omega]
    · rw [List.getElem?_set_ne (by omega)]
  · intro b hb
    simp only [byteAt, readAt, List.getElem?_eq_getElem hi, ok_bind, pure_eq, Outcome.ok.injEq]
      at hb
    simp only [byteAt, readAt, List.getElem?_set_self hi, ok_bind, pure_eq, Outcome.ok.injEq]
    rw [← hb]
    apply BitVec.eq_of_getLsbD_eq
    intro j hj
    have e2 : (i <<< 3) % 32 = 8 * (i % 4) := by simp only [Nat.shiftLeft_eq]; omega
    simp only [BitVec.truncate_eq_setWidth, BitVec.getLsbD_setWidth, BitVec.getLsbD_ushiftRight,
      BitVec.getLsbD_or, BitVec.getLsbD_shiftLeft, e2]
    have h1 : ¬ 8 * (i % 4) + j < 8 * (i % 4) := by omega
    have h2 : 8 * (i % 4) + j < 32 := by omega
    have h3 : 8 * (i % 4) + j - 8 * (i % 4) = j := by omega
    simp [h1, h2, h3, hj, show j < 32 by omega]

/-- The bytes of `dst` are those of `bytes` below `i` and zero from `i` on. -/
def Filled (dst : LeafBits) (bytes : List Byte) (i : Nat) : Prop :=
  (∀ k (hk : k < bytes.length), k < i → byteAt dst k = .ok bytes[k]) ∧
  (∀ k, i ≤ k → k < 4 * dst.length → byteAt dst k = .ok 0)

theorem filled_zero (portalleafs : Nat) (bytes : List Byte) :
    Filled (zeroBits portalleafs) bytes 0 := by
  refine ⟨by intro k _ h; omega, ?_⟩
  intro k _ hk
  have : k >>> 2 < (zeroBits portalleafs).length := by
    simp only [Nat.shiftRight_eq_div_pow]; omega
  simp [byteAt, readAt, zeroBits] at this ⊢
  simp [this]

theorem orByte_filled {dst : LeafBits} {bytes : List Byte} {i : Nat} (hf : Filled dst bytes i)
    (h : i < 4 * dst.length) (hi : i < bytes.length) :
    ∃ dst', orByte dst i bytes[i] = .ok dst' ∧ dst'.length = dst.length
      ∧ Filled dst' bytes (i + 1) := by
  obtain ⟨d, h1, h2, h3, h4⟩ := orByte_spec dst i bytes[i] h
  refine ⟨d, h1, h2, ?_, ?_⟩
  · intro k hk hki
    by_cases hke : k = i
    · subst hke
      rw [h4 0 (hf.2 k (Nat.le_refl _) h)]; simp
    · rw [h3 k hke]; exact hf.1 k hk (by omega)
  · intro k hk hkl
    rw [h3 k (by omega)]
    exact hf.2 k (by omega) (by omega)

theorem copyLoop_ok (src bytes : List Byte) (n i : Nat) (dst : LeafBits)
    (hsrc : ∀ k (hk : k < bytes.length), src[k]? = some bytes[k])
    (hn : i + n = bytes.length) (hd : bytes.length ≤ 4 * dst.length) (hf : Filled dst bytes i) :
    ∃ dst', copyLoop src n dst i = .ok dst' ∧ dst'.length = dst.length ∧
      Filled dst' bytes bytes.length := by
  induction n generalizing i dst with
  | zero =>
    simp only [Nat.add_zero] at hn
    exact ⟨dst, rfl, rfl, hn ▸ hf⟩
  | succ n ih =>
    obtain ⟨d, h1, h2, h3⟩ := orByte_filled hf (by omega) (show i < bytes.length by omega)
    obtain ⟨d', g1, g2, g3⟩ := ih (i + 1) d (by omega) (by omega) h3
    refine ⟨d', ?_, by omega, g3⟩
    simp only [copyLoop, readAt, hsrc i (by omega), ok_bind, h1, g1]

theorem repeatByte_ok (val : Byte) (bytes : List Byte) (k i : Nat) (dst : LeafBits)
    (hv : ∀ j (hj : j < bytes.length), i < j → j ≤ i + k → bytes[j] = val)
    (hk : i + k < bytes.length) (hd : bytes.length ≤ 4 * dst.length)
    (hf : Filled dst bytes (i + 1)) :
    ∃ dst', repeatByte val k dst i = .ok (dst', i + k) ∧ dst'.length = dst.length ∧
      Filled dst' bytes (i + k + 1) := by
  induction k generalizing i dst with
  | zero => exact ⟨dst, rfl, rfl, hf⟩
  | succ k ih =>
    obtain ⟨d, h1, h2, h3⟩ := orByte_filled hf (by omega) (show i + 1 < bytes.length by omega)
    rw [hv (i + 1) (by omega) (by omega) (by omega)] at h1
    obtain ⟨d', g1, g2, g3⟩ := ih (i + 1) d
      (fun j hj h1 h2 => hv j hj (by omega) (by omega)) (by omega) (by omega) h3
    refine ⟨d', ?_, by omega, ?_⟩
    · simp only [repeatByte, h1, ok_bind, g1]
      rw [show i + 1 + k = i + (k + 1) by omega]
    · rw [show i + (k + 1) + 1 = i + 1 + k + 1 by omega]; exact g3

/-- Decoding the encoding of the bytes from `i` on. -/
theorem decompressLoop_ok (bytes : List Byte) : ∀ (n : Nat) (rest pre src : List Byte)
    (dst : LeafBits) (sp : Nat), rest.length ≤ n → bytes = pre ++ rest →
    (∃ junk, src.drop sp = rle rest ++ junk) →
    bytes.length ≤ 4 * dst.length → Filled dst bytes pre.length →
    ∃ dst', decompressLoop bytes.length src dst pre.length sp = .ok dst' ∧
      dst'.length = dst.length ∧ Filled dst' bytes bytes.length := by
  intro n
  induction n with
  | zero =>
    intro rest pre src dst sp hn hb hs hd hf
    have : rest = [] := List.length_eq_zero_iff.mp (by omega)
    subst this
    have hl : pre.length = bytes.length := by rw [hb]; simp
    unfold decompressLoop
    rw [if_neg (by omega)]
    exact ⟨dst, rfl, rfl, hl ▸ hf⟩
  | succ n ih =>
    intro rest pre src dst sp hn hb hs hd hf
    match rest with
    | [] =>
      have hl : pre.length = bytes.length := by rw [hb]; simp
      unfold decompressLoop
      rw [if_neg (by omega)]
      exact ⟨dst, rfl, rfl, hl ▸ hf⟩
    | val :: bs =>
      simp only [List.length_cons] at hn
      obtain ⟨junk, hs⟩ := hs
      have hlen : bytes.length = pre.length + (1 + bs.length) := by rw [hb]; simp; omega
      have hval : bytes[pre.length]'(by omega) = val := by simp [hb]
      unfold decompressLoop
      rw [if_pos (by omega)]
      have hsp : src[sp]? = some val := by
        have : (src.drop sp)[0]? = some val := by
          rw [hs, rle]; split <;> simp
        simpa using this
      split
      · next hh => rw [hsp] at hh; cases hh
      · next c hh =>
        rw [hsp] at hh
        obtain rfl : val = c := by injection hh
        obtain ⟨d, h1, h2, h3⟩ := orByte_filled hf (by omega)
          (show pre.length < bytes.length by omega)
        rw [hval] at h1
        simp only [h1, ok_bind]
        by_cases hv : val ≠ 0 ∧ val ≠ 0xff
        · rw [if_pos hv]
          rw [rle, if_pos hv] at hs
          have key := ih bs (pre ++ [val]) src d (sp + 1) (by omega) (by simp [hb])
            ⟨junk, by rw [← List.drop_drop, hs]; simp⟩ (by omega)
            (by simpa using h3)
          simp only [List.length_append, List.length_cons, List.length_nil] at key
          obtain ⟨d', g1, g2, g3⟩ := key
          exact ⟨d', g1, by omega, g3⟩
        · rw [if_neg hv]
          rw [rle, if_neg hv] at hs
          obtain ⟨k, hk1, hk2, hk3⟩ := countRun_spec val bs 1 (by omega)
          generalize (countRun val bs 1).2 = tl at *
          rw [hk1] at hs
          have hsp1 : src[sp + 1]? = some (BitVec.ofNat 8 (1 + k)) := by
            have : (src.drop sp)[1]? = some (BitVec.ofNat 8 (1 + k)) := by rw [hs]; simp
            simpa using this
          have hrep : (BitVec.ofNat 8 (1 + k)).toNat = 1 + k := by
            simp only [BitVec.toNat_ofNat]; omega
          have hbl : bs.length = k + tl.length := by rw [hk3]; simp
          rw [hsp1]
          simp only [hrep]
          rw [if_neg (by omega), if_neg (by omega)]
          obtain ⟨d2, r1, r2, r3⟩ := repeatByte_ok val bytes k pre.length d (by
              intro j hj hj1 hj2
              subst hb
              rw [List.getElem_append_right (by omega)]
              rw [List.getElem_cons]
              rw [dif_neg (by omega)]
              subst hk3
              rw [List.getElem_append_left (by simp; omega)]
              simp) (by omega) (by omega) h3
          rw [show 1 + k - 1 = k by omega, r1]
          simp only [ok_bind]
          have key := ih tl (pre ++ val :: List.replicate k val) src d2 (sp + 2) (by omega)
            (by rw [hb, hk3]; simp)
            ⟨junk, by rw [← List.drop_drop, hs]; simp⟩ (by omega)
            (by simpa [Nat.add_assoc] using r3)
          simp only [List.length_append, List.length_cons, List.length_replicate] at key
          obtain ⟨d', g1, g2, g3⟩ := key
          refine ⟨d', ?_, by omega, g3⟩
          rw [← g1]
          congr 1

/-- Equal bytes give equal bits. -/
theorem getBit_eq_of_byteAt_eq {a b : LeafBits} {i : Nat}
    (h : byteAt a (i / 8) = byteAt b (i / 8)) (hb : ∃ x, byteAt b (i / 8) = .ok x) :
    getBit a i = getBit b i := by
  obtain ⟨x, hx⟩ := hb
  have hi : (i / 8) >>> 2 = i >>> 5 := by
    simp only [Nat.shiftRight_eq_div_pow]; omega
  have get : ∀ l : LeafBits, byteAt l (i / 8) = .ok x →
      getBit l i = .ok (x.getLsbD (i % 8)) := by
    intro l hl
    simp only [byteAt, hi] at hl
    simp only [getBit]
    cases hr : readAt l (i >>> 5) with
    | error => rw [hr] at hl; cases hl
    | ub => rw [hr] at hl; cases hl
    | ok w =>
      rw [hr] at hl
      simp only [ok_bind, pure_eq, Outcome.ok.injEq] at hl ⊢
      rw [← hl]
      simp only [BitVec.truncate_eq_setWidth, BitVec.getLsbD_setWidth,
        BitVec.getLsbD_ushiftRight, Nat.shiftLeft_eq]
      have : i / 8 * 2 ^ 3 % 32 + i % 8 = i % 32 := by omega
      rw [this]
      simp [show i % 8 < 8 by omega]
  rw [get a (h.trans hx), get b hx]

end Verif.VisState
