import Mathlib.Tactic.Linarith
import Mathlib.Tactic.Ring
import Mathlib.Tactic.FieldSimp
import Mathlib.Tactic.FinCases
import Mathlib.Data.Fintype.Basic
import Verif.DivBounds.Spec
import Verif.Geom.AabbProps

namespace Verif.DivBounds

open Geom Spec
open Geom.Spec (Inside)

variable {K : Type} [Field K] [LinearOrder K] [IsStrictOrderedRing K]

/-- The part of the distance that does not depend on the coordinate along an axis. -/
def rest (s : Split K) (a : Fin 3) (p : Pt K 3) : K := s.normal (a + 1) * p (a + 1) + s.normal (a + 2) * p (a + 2)

theorem dist_rest (s : Split K) (a : Fin 3) (p : Pt K 3) : s.distanceTo p = s.normal a * p a + rest s a p - s.dist := by
  unfold Split.distanceTo rest
  fin_cases a
  · show _ = s.normal 0 * p 0 + (s.normal 1 * p 1 + s.normal 2 * p 2) - s.dist
    ring
  · show _ = s.normal 1 * p 1 + (s.normal 2 * p 2 + s.normal 0 * p 0) - s.dist
    ring
  · show _ = s.normal 2 * p 2 + (s.normal 0 * p 0 + s.normal 1 * p 1) - s.dist
    ring

theorem ne1 (a : Fin 3) : a + 1 ≠ a := by fin_cases a <;> decide
theorem ne2 (a : Fin 3) : a + 2 ≠ a := by fin_cases a <;> decide
theorem ne3 (a : Fin 3) : a + 2 ≠ a + 1 := by fin_cases a <;> decide
theorem cases3 (a k : Fin 3) : k = a ∨ k = a + 1 ∨ k = a + 2 := by
  fin_cases a <;> fin_cases k <;> decide

theorem rest_corner (b : Box K 3) (s : Split K) (a : Fin 3) (i j : Bool) (x : K) :
    rest s a (corner b a i j x) = s.normal (a + 1) * side b i (a + 1) + s.normal (a + 2) * side b j (a + 2) := by
  unfold rest corner
  rw [if_neg (ne1 a), if_pos rfl, if_neg (ne2 a), if_neg (ne3 a)]

theorem corner_self (b : Box K 3) (a : Fin 3) (i j : Bool) (x : K) : corner b a i j x a = x := by
  unfold corner
  rw [if_pos rfl]

theorem mid_on {b : Box K 3} {s : Split K} {a : Fin 3} (hn : s.normal a ≠ 0) (hb : b.mins a < b.maxs a) (i j : Bool) (x : K) :
    s.normal a * mid b s a i j + rest s a (corner b a i j x) = s.dist := by
  unfold mid
  simp only [dist_rest s a, rest_corner, corner_self]
  generalize s.normal (a + 1) * side b i (a + 1) + s.normal (a + 2) * side b j (a + 2) = r
  have h1 : b.maxs a - b.mins a ≠ 0 := sub_ne_zero.2 (ne_of_gt hb)
  have h2 : s.normal a * b.mins a + r - s.dist - (s.normal a * b.maxs a + r - s.dist) = -(s.normal a * (b.maxs a - b.mins a)) := by ring
  rw [h2]
  field_simp
  ring

theorem mem_mids (b : Box K 3) (s : Split K) (a : Fin 3) (i j : Bool) : mid b s a i j ∈ mids b s a := by
  unfold mids
  cases i <;> cases j <;> simp

theorem of_mem_mids {b : Box K 3} {s : Split K} {a : Fin 3} {m : K} (h : m ∈ mids b s a) : ∃ i j, m = mid b s a i j := by
  unfold mids at h
  simp only [List.mem_cons, List.not_mem_nil, or_false] at h
  rcases h with h | h | h | h <;> exact ⟨_, _, h⟩

theorem foldMin_le (lo : K) (ms : List K) (s v : K) (hlo : lo ≤ v) (h : s ≤ v ∨ ∃ m ∈ ms, m ≤ v) :
    ms.foldl (fun m x => max (min x m) lo) s ≤ v := by
  induction ms generalizing s with
  | nil => rcases h with h | ⟨_, h, _⟩; exact h; simp at h
  | cons x t ih =>
    rw [List.foldl_cons]
    refine ih _ ?_
    rcases h with h | ⟨m, hm, h⟩
    · exact .inl (max_le (le_trans (min_le_right _ _) h) hlo)
    · rcases List.mem_cons.1 hm with rfl | hm
      · exact .inl (max_le (le_trans (min_le_left _ _) h) hlo)
      · exact .inr ⟨m, hm, h⟩

theorem foldMin_val (lo : K) (ms : List K) (s : K) (hs : lo ≤ s) :
    ms.foldl (fun m x => max (min x m) lo) s = s ∨ (ms.foldl (fun m x => max (min x m) lo) s = lo ∧ ∃ m ∈ ms, m ≤ lo) ∨
      (ms.foldl (fun m x => max (min x m) lo) s ∈ ms ∧ lo ≤ ms.foldl (fun m x => max (min x m) lo) s ∧
        ms.foldl (fun m x => max (min x m) lo) s ≤ s) := by
  induction ms generalizing s with
  | nil => exact .inl rfl
  | cons x t ih =>
    rw [List.foldl_cons]
    have hle : max (min x s) lo ≤ s := max_le (min_le_right _ _) hs
    rcases ih (max (min x s) lo) (le_max_right _ _) with h | ⟨h, m, hm, h2⟩ | ⟨h1, h2, h3⟩
    · rw [h]
      rcases le_total s x with hx | hx
      · left
        rw [min_eq_right hx, max_eq_left hs]
      · rw [min_eq_left hx]
        rcases le_total x lo with hl | hl
        · exact .inr (.inl ⟨max_eq_right hl, x, .head _, hl⟩)
        · rw [max_eq_left hl]
          exact .inr (.inr ⟨.head _, hl, hx⟩)
    · exact .inr (.inl ⟨h, m, .tail _ hm, h2⟩)
    · exact .inr (.inr ⟨.tail _ h1, h2, le_trans h3 hle⟩)

theorem foldMax_ge (hi : K) (ms : List K) (s v : K) (hhi : v ≤ hi) (h : v ≤ s ∨ ∃ m ∈ ms, v ≤ m) :
    v ≤ ms.foldl (fun m x => min (max x m) hi) s := by
  induction ms generalizing s with
  | nil => rcases h with h | ⟨_, h, _⟩; exact h; simp at h
  | cons x t ih =>
    rw [List.foldl_cons]
    refine ih _ ?_
    rcases h with h | ⟨m, hm, h⟩
    · exact .inl (le_min (le_trans h (le_max_right _ _)) hhi)
    · rcases List.mem_cons.1 hm with rfl | hm
      · exact .inl (le_min (le_trans h (le_max_left _ _)) hhi)
      · exact .inr ⟨m, hm, h⟩

theorem foldMax_val (hi : K) (ms : List K) (s : K) (hs : s ≤ hi) :
    ms.foldl (fun m x => min (max x m) hi) s = s ∨ (ms.foldl (fun m x => min (max x m) hi) s = hi ∧ ∃ m ∈ ms, hi ≤ m) ∨
      (ms.foldl (fun m x => min (max x m) hi) s ∈ ms ∧ ms.foldl (fun m x => min (max x m) hi) s ≤ hi ∧
        s ≤ ms.foldl (fun m x => min (max x m) hi) s) := by
  induction ms generalizing s with
  | nil => exact .inl rfl
  | cons x t ih =>
    rw [List.foldl_cons]
    have hle : s ≤ min (max x s) hi := le_min (le_max_right _ _) hs
    rcases ih (min (max x s) hi) (min_le_right _ _) with h | ⟨h, m, hm, h2⟩ | ⟨h1, h2, h3⟩
    · rw [h]
      rcases le_total x s with hx | hx
      · left
        rw [max_eq_right hx, min_eq_left hs]
      · rw [max_eq_left hx]
        rcases le_total hi x with hl | hl
        · exact .inr (.inl ⟨min_eq_right hl, x, .head _, hl⟩)
        · rw [min_eq_left hl]
          exact .inr (.inr ⟨.head _, hl, hx⟩)
    · exact .inr (.inl ⟨h, m, .tail _ hm, h2⟩)
    · exact .inr (.inr ⟨.tail _ h1, h2, le_trans hle h3⟩)

/-- Some corner is at least as far in front, apart from the coordinate along an axis. -/
theorem corner_above (b : Box K 3) (s : Split K) (a : Fin 3) (p : Pt K 3) (hp : Inside b p) : ∃ i j, ∀ x,
    rest s a p ≤ rest s a (corner b a i j x) := by
  refine ⟨decide (0 ≤ s.normal (a + 1)), decide (0 ≤ s.normal (a + 2)), fun x => ?_⟩
  rw [rest_corner]
  unfold rest side
  have key : ∀ k, s.normal k * p k ≤ s.normal k * (if decide (0 ≤ s.normal k) = true then b.maxs k else b.mins k) := by
    intro k
    by_cases h : 0 ≤ s.normal k
    · simp only [h, decide_true, if_true]
      exact mul_le_mul_of_nonneg_left (hp k).2 h
    · simp only [h, decide_false, Bool.false_eq_true, if_false]
      exact mul_le_mul_of_nonpos_left (hp k).1 (le_of_lt (not_le.1 h))
  exact add_le_add (key _) (key _)

theorem corner_below (b : Box K 3) (s : Split K) (a : Fin 3) (p : Pt K 3) (hp : Inside b p) : ∃ i j, ∀ x,
    rest s a (corner b a i j x) ≤ rest s a p := by
  refine ⟨!decide (0 ≤ s.normal (a + 1)), !decide (0 ≤ s.normal (a + 2)), fun x => ?_⟩
  rw [rest_corner]
  unfold rest side
  have key : ∀ k, s.normal k * (if (!decide (0 ≤ s.normal k)) = true then b.maxs k else b.mins k) ≤ s.normal k * p k := by
    intro k
    by_cases h : 0 ≤ s.normal k
    · simp only [h, decide_true, Bool.not_true, Bool.false_eq_true, if_false]
      exact mul_le_mul_of_nonneg_left (hp k).1 h
    · simp only [h, decide_false, Bool.not_false, if_true]
      exact mul_le_mul_of_nonpos_left (hp k).2 (le_of_lt (not_le.1 h))
  exact add_le_add (key _) (key _)

theorem front_iff (s : Split K) (a : Fin 3) (p : Pt K 3) : Front s p ↔ s.dist ≤ s.normal a * p a + rest s a p := by
  have := dist_rest s a p
  unfold Split.distanceTo at this
  unfold Front
  constructor <;> intro h <;> linarith

theorem back_iff (s : Split K) (a : Fin 3) (p : Pt K 3) : Back s p ↔ s.normal a * p a + rest s a p ≤ s.dist := by
  have := dist_rest s a p
  unfold Split.distanceTo at this
  unfold Back
  constructor <;> intro h <;> linarith

theorem inside_corner {b : Box K 3} {a : Fin 3} (hs : Solid b) (i j : Bool) {x : K} (h1 : b.mins a ≤ x) (h2 : x ≤ b.maxs a) :
    Inside b (corner b a i j x) := by
  intro k
  unfold corner side
  have := le_of_lt (hs k)
  split_ifs with hk
  · subst hk; exact ⟨h1, h2⟩
  all_goals first | exact ⟨this, le_refl _⟩ | exact ⟨le_refl _, this⟩

/-- The same plane seen from behind. -/
def flipS (s : Split K) : Split K := ⟨fun a => -s.normal a, -s.dist, s.axis⟩

theorem front_flip (s : Split K) (p : Pt K 3) : Front (flipS s) p ↔ Back s p := by
  unfold Front Back flipS
  constructor <;> intro h <;> dsimp only at * <;> nlinarith

/-- The bound below of the part in front, where the plane faces along an axis. -/
theorem splitMins_front {b : Box K 3} {s : Split K} {a : Fin 3} (hs : Solid b) (hn : 0 < s.normal a) :
    (∀ p, FrontPart b s p → splitMins b s a ≤ p a) ∧ ((∃ p, FrontPart b s p) → ∃ p, FrontPart b s p ∧ p a = splitMins b s a) := by
  have hle : ∀ p, FrontPart b s p → splitMins b s a ≤ p a := by
    intro p ⟨hi, hf⟩
    obtain ⟨i, j, hr⟩ := corner_above b s a p hi
    refine foldMin_le _ _ _ _ (hi a).1 (.inr ⟨_, mem_mids b s a i j, ?_⟩)
    have h1 := mid_on (ne_of_gt hn) (hs a) i j 0
    have h2 := hr 0
    have h3 := (front_iff s a p).1 hf
    by_contra hc
    have := mul_lt_mul_of_pos_left (not_le.1 hc) hn
    linarith
  refine ⟨hle, fun ⟨p, hp⟩ => ?_⟩
  rcases foldMin_val (b.mins a) (mids b s a) (b.maxs a) (le_of_lt (hs a)) with h | ⟨h, m, hm, h2⟩ | ⟨h1, h2, h3⟩
  · refine ⟨p, hp, ?_⟩
    have h4 := hle p hp
    unfold splitMins at h4 ⊢
    rw [h] at h4 ⊢
    exact le_antisymm (hp.1 a).2 h4
  · obtain ⟨i, j, rfl⟩ := of_mem_mids hm
    refine ⟨corner b a i j (b.mins a), ⟨inside_corner hs i j (le_refl _) (le_of_lt (hs a)), ?_⟩, ?_⟩
    · rw [front_iff s a, corner_self]
      have h1 := mid_on (ne_of_gt hn) (hs a) i j (b.mins a)
      have := mul_le_mul_of_nonneg_left h2 (le_of_lt hn)
      linarith
    · rw [corner_self]
      exact h.symm
  · obtain ⟨i, j, h⟩ := of_mem_mids h1
    refine ⟨corner b a i j (splitMins b s a), ⟨inside_corner hs i j h2 h3, ?_⟩, corner_self ..⟩
    rw [front_iff s a, corner_self]
    have h1 := mid_on (ne_of_gt hn) (hs a) i j (splitMins b s a)
    have h4 : splitMins b s a = mid b s a i j := h
    rw [h4] at h1 ⊢
    exact le_of_eq h1.symm

theorem splitMaxs_back {b : Box K 3} {s : Split K} {a : Fin 3} (hs : Solid b) (hn : 0 < s.normal a) :
    (∀ p, BackPart b s p → p a ≤ splitMaxs b s a) ∧ ((∃ p, BackPart b s p) → ∃ p, BackPart b s p ∧ p a = splitMaxs b s a) := by
  have hle : ∀ p, BackPart b s p → p a ≤ splitMaxs b s a := by
    intro p ⟨hi, hf⟩
    obtain ⟨i, j, hr⟩ := corner_below b s a p hi
    refine foldMax_ge _ _ _ _ (hi a).2 (.inr ⟨_, mem_mids b s a i j, ?_⟩)
    have h1 := mid_on (ne_of_gt hn) (hs a) i j 0
    have h2 := hr 0
    have h3 := (back_iff s a p).1 hf
    by_contra hc
    have := mul_lt_mul_of_pos_left (not_le.1 hc) hn
    linarith
  refine ⟨hle, fun ⟨p, hp⟩ => ?_⟩
  rcases foldMax_val (b.maxs a) (mids b s a) (b.mins a) (le_of_lt (hs a)) with h | ⟨h, m, hm, h2⟩ | ⟨h1, h2, h3⟩
  · refine ⟨p, hp, ?_⟩
    have h4 := hle p hp
    unfold splitMaxs at h4 ⊢
    rw [h] at h4 ⊢
    exact le_antisymm h4 (hp.1 a).1
  · obtain ⟨i, j, rfl⟩ := of_mem_mids hm
    refine ⟨corner b a i j (b.maxs a), ⟨inside_corner hs i j (le_of_lt (hs a)) (le_refl _), ?_⟩, ?_⟩
    · rw [back_iff s a, corner_self]
      have h1 := mid_on (ne_of_gt hn) (hs a) i j (b.maxs a)
      have := mul_le_mul_of_nonneg_left h2 (le_of_lt hn)
      linarith
    · rw [corner_self]
      exact h.symm
  · obtain ⟨i, j, h⟩ := of_mem_mids h1
    refine ⟨corner b a i j (splitMaxs b s a), ⟨inside_corner hs i j h3 h2, ?_⟩, corner_self ..⟩
    rw [back_iff s a, corner_self]
    have h1 := mid_on (ne_of_gt hn) (hs a) i j (splitMaxs b s a)
    have h4 : splitMaxs b s a = mid b s a i j := h
    rw [h4] at h1 ⊢
    exact le_of_eq h1

theorem mid_flip (b : Box K 3) (s : Split K) (a : Fin 3) (i j : Bool) : mid b (flipS s) a i j = mid b s a i j := by
  have h : ∀ p, (flipS s).distanceTo p = -s.distanceTo p := by
    intro p
    unfold Split.distanceTo flipS
    ring
  unfold mid
  simp only [h]
  rw [show ∀ x y : K, -x - -y = -(x - y) from fun x y => by ring, neg_div_neg_eq]

theorem mids_flip (b : Box K 3) (s : Split K) (a : Fin 3) : mids b (flipS s) a = mids b s a := by
  unfold mids
  simp only [mid_flip]

theorem splitMins_flip (b : Box K 3) (s : Split K) (a : Fin 3) : splitMins b (flipS s) a = splitMins b s a := by
  unfold splitMins
  rw [mids_flip]

theorem splitMaxs_flip (b : Box K 3) (s : Split K) (a : Fin 3) : splitMaxs b (flipS s) a = splitMaxs b s a := by
  unfold splitMaxs
  rw [mids_flip]

theorem back_flip (s : Split K) (p : Pt K 3) : Back (flipS s) p ↔ Front s p := by
  unfold Front Back flipS
  constructor <;> intro h <;> dsimp only at * <;> nlinarith

theorem splitMins_back {b : Box K 3} {s : Split K} {a : Fin 3} (hs : Solid b) (hn : s.normal a < 0) :
    (∀ p, BackPart b s p → splitMins b s a ≤ p a) ∧ ((∃ p, BackPart b s p) → ∃ p, BackPart b s p ∧ p a = splitMins b s a) := by
  have := splitMins_front (s := flipS s) hs (a := a) (by simpa [flipS] using hn)
  simpa only [FrontPart, BackPart, front_flip, splitMins_flip] using this

theorem splitMaxs_front {b : Box K 3} {s : Split K} {a : Fin 3} (hs : Solid b) (hn : s.normal a < 0) :
    (∀ p, FrontPart b s p → p a ≤ splitMaxs b s a) ∧ ((∃ p, FrontPart b s p) → ∃ p, FrontPart b s p ∧ p a = splitMaxs b s a) := by
  have := splitMaxs_back (s := flipS s) hs (a := a) (by simpa [flipS] using hn)
  simpa only [FrontPart, BackPart, back_flip, splitMaxs_flip] using this

/-- A point can be moved along an axis, as long as it stays on its side. -/
theorem move_front {b : Box K 3} {s : Split K} (a : Fin 3) {p : Pt K 3} (hp : FrontPart b s p) (x : K) (h1 : b.mins a ≤ x) (h2 : x ≤ b.maxs a)
    (h : s.normal a * p a ≤ s.normal a * x) : FrontPart b s (Function.update p a x) := by
  refine ⟨fun k => ?_, ?_⟩
  · by_cases hk : k = a
    · subst hk; simpa using ⟨h1, h2⟩
    · simpa [hk] using hp.1 k
  · have hf := (front_iff s a p).1 hp.2
    rw [front_iff s a]
    unfold rest at *
    simp only [Function.update_self, Function.update_of_ne (ne1 a), Function.update_of_ne (ne2 a)]
    linarith

theorem move_back {b : Box K 3} {s : Split K} (a : Fin 3) {p : Pt K 3} (hp : BackPart b s p) (x : K) (h1 : b.mins a ≤ x) (h2 : x ≤ b.maxs a)
    (h : s.normal a * x ≤ s.normal a * p a) : BackPart b s (Function.update p a x) := by
  refine ⟨fun k => ?_, ?_⟩
  · by_cases hk : k = a
    · subst hk; simpa using ⟨h1, h2⟩
    · simpa [hk] using hp.1 k
  · have hf := (back_iff s a p).1 hp.2
    rw [back_iff s a]
    unfold rest at *
    simp only [Function.update_self, Function.update_of_ne (ne1 a), Function.update_of_ne (ne2 a)]
    linarith

end Verif.DivBounds
