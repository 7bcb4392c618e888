import Verif.SunRay.Spec
import Mathlib.Tactic.Ring
import Mathlib.Tactic.Positivity
import Mathlib.Tactic.FieldSimp

/-!
Lemmas for C216.
-/

namespace Verif.SunRay

open Verif.Geom Verif.Illum Spec

theorem dot_self_nonneg (a : Vec ℝ) : 0 ≤ dot a a := by
  unfold dot
  nlinarith [mul_self_nonneg a.x, mul_self_nonneg a.y, mul_self_nonneg a.z]

theorem dot_smul_self (k : ℝ) (a : Vec ℝ) : dot (smul k a) (smul k a) = k ^ 2 * dot a a := by
  unfold dot smul
  ring

theorem smul_smul (j k : ℝ) (a : Vec ℝ) : smul j (smul k a) = smul (j * k) a := by
  unfold smul
  simp only [Vec.mk.injEq]
  refine ⟨by ring, by ring, by ring⟩

theorem zero_of_dot {b : Vec ℝ} (h : dot b b = 0) : b = ⟨0, 0, 0⟩ := by
  unfold dot at h
  have h1 := mul_self_nonneg b.x
  have h2 := mul_self_nonneg b.y
  have h3 := mul_self_nonneg b.z
  have e1 : b.x = 0 := mul_self_eq_zero.mp (by linarith)
  have e2 : b.y = 0 := mul_self_eq_zero.mp (by linarith)
  have e3 : b.z = 0 := mul_self_eq_zero.mp (by linarith)
  cases b
  simp_all

theorem smul_zero (k : ℝ) : smul k ⟨0, 0, 0⟩ = ⟨0, 0, 0⟩ := by simp [smul]

theorem zero_smul (b : Vec ℝ) : smul 0 b = ⟨0, 0, 0⟩ := by simp [smul]

theorem foldl_longest (b : Vec ℝ) (ks : List ℝ) (hk : ∀ k ∈ ks, 0 ≤ k) (K : ℝ) (hK : 0 ≤ K) :
    (ks.map fun k => smul k b).foldl (fun c d => if dot d d > dot c c then d else c) (smul K b) = smul (ks.foldl max K) b := by
  induction ks generalizing K with
  | nil => rfl
  | cons k t ih =>
    have h0 := hk k List.mem_cons_self
    have e : (if dot (smul k b) (smul k b) > dot (smul K b) (smul K b) then smul k b else smul K b) = smul (max K k) b := by
      rw [dot_smul_self, dot_smul_self]
      rcases (dot_self_nonneg b).eq_or_lt with hb | hb
      · rw [zero_of_dot hb.symm, smul_zero, smul_zero, smul_zero, ite_self]
      · by_cases hlt : K < k
        · rw [if_pos (mul_lt_mul_of_pos_right (pow_lt_pow_left₀ hlt hK (by norm_num)) hb), max_eq_right hlt.le]
        · rw [if_neg (not_lt.mpr (mul_le_mul_of_nonneg_right (pow_le_pow_left₀ h0 (not_lt.mp hlt) 2) hb.le)), max_eq_left (not_lt.mp hlt)]
    rw [List.map_cons, List.foldl_cons, List.foldl_cons, e]
    exact ih (fun k' h' => hk k' (List.mem_cons_of_mem _ h')) _ (le_max_of_le_left hK)

theorem longest_scaled (b : Vec ℝ) (ks : List ℝ) (hk : ∀ k ∈ ks, 0 ≤ k) : longest (ks.map fun k => smul k b) = smul (ks.foldl max 0) b := by
  unfold longest
  rw [← foldl_longest b ks hk 0 (le_refl _), zero_smul]

/-- The largest over the six directions. -/
theorem cube_max (f : ℝ → ℝ) (hm : ∀ x y, 0 ≤ y → x ≤ y → f x ≤ f y) (h0 : 0 ≤ f 0) (u : Vec ℝ) :
    (cube.map fun n => f (dot u n)).foldl max 0 = f (max |u.x| (max |u.y| |u.z|)) := by
  have e : (cube.map fun n => f (dot u n)) = [f (-u.x), f u.x, f (-u.y), f u.y, f (-u.z), f u.z] := by
    unfold cube dot
    simp
  rw [e]
  simp only [List.foldl_cons, List.foldl_nil]
  set M := max |u.x| (max |u.y| |u.z|) with hM
  have hx : |u.x| ≤ M := le_max_left _ _
  have hy : |u.y| ≤ M := le_trans (le_max_left _ _) (le_max_right _ _)
  have hz : |u.z| ≤ M := le_trans (le_max_right _ _) (le_max_right _ _)
  have hM0 : 0 ≤ M := le_trans (abs_nonneg _) hx
  apply le_antisymm
  · have q : ∀ x, x ≤ M → f x ≤ f M := fun x hx => hm x M hM0 hx
    refine max_le (max_le (max_le (max_le (max_le (max_le (le_trans h0 (q 0 hM0)) (q _ ?_)) (q _ ?_)) (q _ ?_)) (q _ ?_)) (q _ ?_)) (q _ ?_)
    · exact le_trans (neg_le_abs _) hx
    · exact le_trans (le_abs_self _) hx
    · exact le_trans (neg_le_abs _) hy
    · exact le_trans (le_abs_self _) hy
    · exact le_trans (neg_le_abs _) hz
    · exact le_trans (le_abs_self _) hz
  · have hc : M = |u.x| ∨ M = |u.y| ∨ M = |u.z| := by
      rw [hM]
      rcases max_choice |u.x| (max |u.y| |u.z|) with h | h
      · exact Or.inl h
      · rw [h]
        rcases max_choice |u.y| |u.z| with h | h
        · exact Or.inr (Or.inl h)
        · exact Or.inr (Or.inr h)
    have s : ∀ x : ℝ, f |x| = f x ∨ f |x| = f (-x) := fun x => by
      rcases abs_choice x with h | h <;> rw [h]
      · exact Or.inl rfl
      · exact Or.inr rfl
    rcases hc with h | h | h <;> rw [h]
    · rcases s u.x with h | h <;> rw [h] <;> simp [le_max_iff]
    · rcases s u.y with h | h <;> rw [h] <;> simp [le_max_iff]
    · rcases s u.z with h | h <;> rw [h] <;> simp [le_max_iff]

theorem len_pos {v : Vec ℝ} (h : v ≠ ⟨0, 0, 0⟩) : 0 < len v := by
  unfold len
  apply Real.sqrt_pos.mpr
  exact lt_of_le_of_ne (dot_self_nonneg v) fun e => h (zero_of_dot e.symm)

theorem len_sq (v : Vec ℝ) : len v ^ 2 = v.x ^ 2 + v.y ^ 2 + v.z ^ 2 := by
  unfold len
  rw [Real.sq_sqrt (dot_self_nonneg v)]
  unfold dot
  ring

theorem norm_eq {v : Vec ℝ} (h : v ≠ ⟨0, 0, 0⟩) : norm v = smul (1 / len v) v := by
  unfold norm
  rw [if_neg (len_pos h).ne']

theorem dot_norm {v : Vec ℝ} (h : v ≠ ⟨0, 0, 0⟩) (n : Vec ℝ) : dot (norm v) n = cosine v n := by
  rw [norm_eq h]
  unfold cosine dot smul
  have := len_pos h
  field_simp

/-- The largest part of a direction is from `1 / sqrt 3` to 1. -/
theorem axial_range {v : Vec ℝ} (h : v ≠ ⟨0, 0, 0⟩) : 1 / Real.sqrt 3 ≤ axial v ∧ axial v ≤ 1 := by
  have hp := len_pos h
  have hs := len_sq v
  unfold axial
  set M := max |v.x| (max |v.y| |v.z|) with hM
  have hx : |v.x| ≤ M := le_max_left _ _
  have hy : |v.y| ≤ M := le_trans (le_max_left _ _) (le_max_right _ _)
  have hz : |v.z| ≤ M := le_trans (le_max_right _ _) (le_max_right _ _)
  have hM0 : 0 ≤ M := le_trans (abs_nonneg _) hx
  have sx := pow_le_pow_left₀ (abs_nonneg _) hx 2
  have sy := pow_le_pow_left₀ (abs_nonneg _) hy 2
  have sz := pow_le_pow_left₀ (abs_nonneg _) hz 2
  rw [sq_abs] at sx sy sz
  constructor
  · rw [div_le_div_iff₀ (by positivity) hp, one_mul]
    have h3 : Real.sqrt 3 ^ 2 = 3 := Real.sq_sqrt (by norm_num)
    have : len v ^ 2 ≤ (M * Real.sqrt 3) ^ 2 := by rw [mul_pow, h3, hs]; nlinarith
    exact (pow_le_pow_iff_left₀ hp.le (by positivity) (by norm_num)).mp this
  · rw [div_le_one hp]
    have b : ∀ x : ℝ, x ^ 2 ≤ len v ^ 2 → |x| ≤ len v := fun x hx => abs_le_of_sq_le_sq hx hp.le
    refine max_le (b _ ?_) (max_le (b _ ?_) (b _ ?_)) <;> rw [hs] <;> nlinarith [sq_nonneg v.x, sq_nonneg v.y, sq_nonneg v.z]

theorem cosine_le {v n : Vec ℝ} (h : v ≠ ⟨0, 0, 0⟩) (hn : Normed n) : cosine v n ≤ 1 := by
  have hp := len_pos h
  have hs := len_sq v
  unfold cosine Normed at *
  rw [div_le_one hp]
  refine le_trans (le_abs_self _) (abs_le_of_sq_le_sq ?_ hp.le)
  rw [hs]
  unfold dot at *
  nlinarith [sq_nonneg (v.x * n.y - v.y * n.x), sq_nonneg (v.x * n.z - v.z * n.x), sq_nonneg (v.y * n.z - v.z * n.y)]

theorem axial_norm {v : Vec ℝ} (h : v ≠ ⟨0, 0, 0⟩) : max |(norm v).x| (max |(norm v).y| |(norm v).z|) = axial v := by
  have hp := len_pos h
  rw [norm_eq h]
  unfold axial smul
  have hq : 0 ≤ 1 / len v := by positivity
  simp only [abs_mul, abs_of_nonneg hq]
  rw [← mul_max_of_nonneg _ _ hq, ← mul_max_of_nonneg _ _ hq]
  ring

theorem toLight_normed (l : Light) (p : Vec ℝ) : Normed (toLight l p).2 ∧ (toLight l p).2 ≠ ⟨0, 0, 0⟩ := by
  have key : Normed (toLight l p).2 := by
    unfold toLight Normed
    simp only
    split_ifs with h
    · simp [dot]
    · rw [dot_smul_self]
      have : dot (vsub l.origin p) (vsub l.origin p) = len (vsub l.origin p) ^ 2 := by
        unfold len
        rw [Real.sq_sqrt (dot_self_nonneg _)]
      rw [this]
      have hne : len (vsub l.origin p) ≠ 0 := by intro h0; rw [h0] at h; norm_num at h
      field_simp
  refine ⟨key, fun h => ?_⟩
  rw [h] at key
  unfold Normed dot at key
  norm_num at key

theorem normed_len {v : Vec ℝ} (h : Normed v) : len v = 1 := by
  unfold len
  rw [h, Real.sqrt_one]

end Verif.SunRay
