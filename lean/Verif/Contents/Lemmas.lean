import Verif.Contents.Model

/-! Helper lemmas about flag tests. -/

namespace Verif.Contents

theorem getLsbD_bit (j k : Nat) (hj : j < 64) : (bit j).getLsbD k = decide (j = k) := by
  unfold bit
  rw [BitVec.getLsbD_shiftLeft]
  by_cases h : j = k
  · subst h; simp [hj]
  · simp [h]
    intro h1 h2
    omega

theorem tst_iff (c m : Contents) : tst c m = true ↔ ∃ k, c.getLsbD k = true ∧ m.getLsbD k = true := by
  unfold tst
  rw [bne_iff_ne, ne_eq, BitVec.eq_of_getLsbD_eq_iff]
  simp only [BitVec.getLsbD_and, BitVec.getLsbD_zero, Bool.and_eq_false_imp, Classical.not_forall]
  constructor
  · rintro ⟨i, _, h1, h2⟩; exact ⟨i, h1, by simpa using h2⟩
  · rintro ⟨k, h1, h2⟩
    exact ⟨k, BitVec.lt_of_getLsbD h1, h1, by simpa using h2⟩

theorem tst_bit (c : Contents) (k : Nat) (hk : k < 64) : tst c (bit k) = c.getLsbD k := by
  rw [Bool.eq_iff_iff, tst_iff]
  constructor
  · rintro ⟨j, h1, h2⟩
    rw [getLsbD_bit _ _ hk] at h2
    have : k = j := by simpa using h2
    subst this; exact h1
  · intro h; exact ⟨k, h, by rw [getLsbD_bit _ _ hk]; simp⟩

theorem tst_or_right (c m n : Contents) : tst c (m ||| n) = (tst c m || tst c n) := by
  rw [Bool.eq_iff_iff, Bool.or_eq_true, tst_iff, tst_iff, tst_iff]
  simp only [BitVec.getLsbD_or, Bool.or_eq_true]
  constructor
  · rintro ⟨k, h, h1 | h1⟩
    · exact .inl ⟨k, h, h1⟩
    · exact .inr ⟨k, h, h1⟩
  · rintro (⟨k, h, h1⟩ | ⟨k, h, h1⟩)
    · exact ⟨k, h, .inl h1⟩
    · exact ⟨k, h, .inr h1⟩

theorem tst_or_left (a b m : Contents) : tst (a ||| b) m = (tst a m || tst b m) := by
  rw [Bool.eq_iff_iff, Bool.or_eq_true, tst_iff, tst_iff, tst_iff]
  simp only [BitVec.getLsbD_or, Bool.or_eq_true]
  constructor
  · rintro ⟨k, h1 | h1, h⟩
    · exact .inl ⟨k, h1, h⟩
    · exact .inr ⟨k, h1, h⟩
  · rintro (⟨k, h, h1⟩ | ⟨k, h, h1⟩)
    · exact ⟨k, .inl h, h1⟩
    · exact ⟨k, .inr h, h1⟩

theorem tst_andnot_bit (a m : Contents) (k : Nat) (hk : k < 64) :
    tst (a &&& ~~~ m) (bit k) = (a.getLsbD k && !m.getLsbD k) := by
  rw [tst_bit _ _ hk]
  simp [hk]

theorem tst_zero_left (m : Contents) : tst 0#64 m = false := by simp [tst]
theorem tst_self_bit (j k : Nat) (hj : j < 64) (hk : k < 64) :
    tst (bit j) (bit k) = decide (j = k) := by
  rw [tst_bit _ _ hk, getLsbD_bit _ _ hj]

/-- Extensionality on the flag bits. -/
theorem ext_bits {a b : Contents} (h : ∀ k, k < 64 → a.getLsbD k = b.getLsbD k) : a = b :=
  BitVec.eq_of_getLsbD_eq h

/-- Simp set turning flag tests into Boolean formulas over the bits of the arguments. -/
theorem xor_tst_visible (a b : Contents) :
    tst (a ^^^ b) ALL_VISIBLE = true ↔ ∃ k, k ≤ 8 ∧ a.getLsbD k ≠ b.getLsbD k := by
  simp only [ALL_VISIBLE, tst_or_right, tst_bit, Nat.reduceLT, Bool.or_eq_true,
    BitVec.getLsbD_xor, bne_iff_ne]
  constructor
  · rintro ((((((((h | h) | h) | h) | h) | h) | h) | h) | h) <;> exact ⟨_, by decide, h⟩
  · rintro ⟨k, hk, h⟩
    have : k = 0 ∨ k = 1 ∨ k = 2 ∨ k = 3 ∨ k = 4 ∨ k = 5 ∨ k = 6 ∨ k = 7 ∨ k = 8 := by omega
    rcases this with r | r | r | r | r | r | r | r | r <;> subst r <;>
      simp only [ne_eq] at h ⊢ <;> simp only [h, not_false_eq_true, true_or, or_true]

/-- `visibleIndexFrom` finds the least set bit at or above its start. -/
theorem visibleIndexFrom_some (c : Contents) (i k : Nat) :
    visibleIndexFrom c i = some k ↔
      i ≤ k ∧ k ≤ 8 ∧ c.getLsbD k = true ∧ ∀ j, i ≤ j → j < k → c.getLsbD j = false := by
  fun_induction visibleIndexFrom c i with
  | case1 i h1 h2 =>
    rw [tst_bit _ _ (by simp [lastVisibleIndex] at h1; omega)] at h2
    constructor
    · intro h
      have : i = k := by simpa using h
      subst this
      exact ⟨Nat.le_refl _, h1, h2, fun j a b => by omega⟩
    · rintro ⟨a, _, _, d⟩
      by_cases h : i = k
      · simp [h]
      · have := d i (Nat.le_refl _) (by omega)
        rw [h2] at this; cases this
  | case2 i h1 h2 ih =>
    rw [tst_bit _ _ (by simp [lastVisibleIndex] at h1; omega)] at h2
    rw [ih]
    constructor
    · rintro ⟨a, b, d, e⟩
      refine ⟨by omega, b, d, fun j x y => ?_⟩
      by_cases h : j = i
      · subst h; simpa using h2
      · exact e j (by omega) y
    · rintro ⟨a, b, d, e⟩
      by_cases h : i = k
      · subst h; exact absurd d h2
      · exact ⟨by omega, b, d, fun j x y => e j (by omega) y⟩
  | case3 i h1 =>
    simp only [lastVisibleIndex] at h1
    constructor
    · intro h; cases h
    · rintro ⟨a, b, _⟩; omega

theorem visibleIndexFrom_none (c : Contents) (i : Nat) :
    visibleIndexFrom c i = none ↔ ∀ j, i ≤ j → j ≤ 8 → c.getLsbD j = false := by
  fun_induction visibleIndexFrom c i with
  | case1 i h1 h2 =>
    rw [tst_bit _ _ (by simp [lastVisibleIndex] at h1; omega)] at h2
    constructor
    · intro h; cases h
    · intro h; have := h i (Nat.le_refl _) h1; rw [h2] at this; cases this
  | case2 i h1 h2 ih =>
    rw [tst_bit _ _ (by simp [lastVisibleIndex] at h1; omega)] at h2
    rw [ih]
    constructor
    · intro h j x y
      by_cases hj : j = i
      · subst hj; simpa using h2
      · exact h j (by omega) y
    · intro h j x y; exact h j (by omega) y
  | case3 i h1 =>
    simp only [lastVisibleIndex] at h1
    constructor
    · intro _ j a b; omega
    · intro _; rfl

/-! ### The Quake II table -/

namespace Q2

theorem fromNative_fold (native : BitVec 32) (l : List (Nat × Nat)) (hl : ∀ p ∈ l, p.2 < 64)
    (acc : Contents) (k : Nat) :
    (l.foldl (fun r p => if native.getLsbD p.1 then r ||| bit p.2 else r) acc).getLsbD k
      = (acc.getLsbD k || l.any (fun p => native.getLsbD p.1 && decide (p.2 = k))) := by
  induction l generalizing acc with
  | nil => simp
  | cons p l ih =>
    rw [List.foldl_cons, ih (fun q hq => hl q (List.mem_cons_of_mem _ hq))]
    have hp := hl p (List.mem_cons_self ..)
    cases h : native.getLsbD p.1
    · simp [h]
    · simp [h, BitVec.getLsbD_or, getLsbD_bit _ _ hp, Bool.or_assoc]

theorem fromNative_bit (native : BitVec 32) (k : Nat) :
    (fromNative native).getLsbD k
      = fromNativeTable.any (fun p => native.getLsbD p.1 && decide (p.2 = k)) := by
  unfold fromNative
  rw [fromNative_fold _ _ (by decide)]
  simp

theorem getLsbD_bit32 (j k : Nat) (hj : j < 32) : ((1#32) <<< j).getLsbD k = decide (j = k) := by
  rw [BitVec.getLsbD_shiftLeft]
  by_cases h : j = k
  · subst h; simp [hj]
  · simp [h]; intro h1 h2; omega

/-- Pairs (internal bit, native bit) written by a statement list. -/
def mapsOf : List ToNativeStmt → List (Nat × Nat)
  | [] => []
  | .map i n :: r => (i, n) :: mapsOf r
  | .throwIf _ :: r => mapsOf r

/-- Internal bits rejected by a statement list. -/
def throwsOf : List ToNativeStmt → List Nat
  | [] => []
  | .map _ _ :: r => throwsOf r
  | .throwIf i :: r => i :: throwsOf r

theorem toNativeRun_ok (c : Contents) (l : List ToNativeStmt)
    (hm : ∀ p ∈ mapsOf l, p.1 < 64 ∧ p.2 < 32) (ht : ∀ i ∈ throwsOf l, i < 64 ∧ c.getLsbD i = false)
    (acc : BitVec 32) :
    ∃ r, toNativeRun c l acc = .ok r ∧ ∀ k, r.getLsbD k
      = (acc.getLsbD k || (mapsOf l).any (fun p => c.getLsbD p.1 && decide (p.2 = k))) := by
  induction l generalizing acc with
  | nil => exact ⟨acc, rfl, fun k => by simp [mapsOf]⟩
  | cons s l ih =>
    cases s with
    | map i n =>
      have hi := hm (i, n) (by simp [mapsOf])
      obtain ⟨r, h1, h2⟩ := ih (fun p hp => hm p (by simp [mapsOf, hp]))
        (fun j hj => ht j (by simpa [throwsOf] using hj))
        (if tst c (bit i) then acc ||| ((1#32) <<< n) else acc)
      refine ⟨r, by rw [toNativeRun]; exact h1, fun k => ?_⟩
      rw [h2, tst_bit _ _ hi.1]
      simp only [mapsOf, List.any_cons]
      cases h : c.getLsbD i
      · simp
      · simp [BitVec.getLsbD_or, getLsbD_bit32 _ _ hi.2, Bool.or_assoc]
    | throwIf i =>
      have hi := ht i (by simp [throwsOf])
      obtain ⟨r, h1, h2⟩ := ih (fun p hp => hm p (by simpa [mapsOf] using hp))
        (fun j hj => ht j (by simp [throwsOf, hj])) acc
      refine ⟨r, ?_, fun k => by rw [h2]; rfl⟩
      rw [toNativeRun, tst_bit _ _ hi.1, hi.2]
      simpa using h1

theorem toNativeRun_error (c : Contents) (l : List ToNativeStmt) (i : Nat) (hi : i < 64)
    (hmem : i ∈ throwsOf l) (hc : c.getLsbD i = true) (acc : BitVec 32) :
    toNativeRun c l acc = .error := by
  induction l generalizing acc with
  | nil => simp [throwsOf] at hmem
  | cons s l ih =>
    cases s with
    | map j n => rw [toNativeRun]; exact ih (by simpa [throwsOf] using hmem) _
    | throwIf j =>
      rw [toNativeRun]
      split
      · rfl
      · rename_i h
        simp only [throwsOf, List.mem_cons] at hmem
        rcases hmem with rfl | hmem
        · rw [tst_bit _ _ hi] at h; exact absurd hc h
        · exact ih hmem _

end Q2

end Verif.Contents
