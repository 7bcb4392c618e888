import Verif.Radiosity.Spec
import Mathlib.Tactic.FieldSimp
import Mathlib.Tactic.Ring
import Mathlib.Tactic.Linarith

/-! Lemmas about colours and strengths. -/

namespace Verif.Radiosity

open Verif.Geom

variable {K : Type} [Field K] [LinearOrder K]

theorem brightest_iff (c : Vec K) (b : K) : Brightest c b ↔ b = vmax c := by
  unfold Brightest vmax
  constructor
  · rintro ⟨h, hx, hy, hz⟩
    apply le_antisymm
    · rcases h with rfl | rfl | rfl <;> simp
    · simp [hx, hy, hz]
  · rintro rfl
    refine ⟨?_, by simp, by simp, by simp⟩
    rcases max_choice c.z (max c.y c.x) with h | h
    · exact Or.inr (Or.inr h)
    · rw [h]
      rcases max_choice c.y c.x with h | h
      · exact Or.inr (Or.inl h)
      · exact Or.inl h

theorem color_iff (e : Env K) (f : Surface K) (s : Source K) (c : Vec K) :
    Color e f s c ↔ c = surfaceColor e f s.color s.sky := by
  unfold Color surfaceColor
  cases f.color with
  | some d => simp only [Option.some.injEq, reduceCtorEq, false_and, or_false]; exact eq_comm
  | none =>
    cases s.color with
    | some d => simp only [Option.some.injEq, reduceCtorEq, false_and, or_false, false_or, true_and, and_false]; exact eq_comm
    | none =>
      cases e.sky with
      | none => simp
      | some k =>
        cases s.sky with
        | false => simp
        | true => simp [scale]

/-- The light that one unit of the area gives off, as the model has it. -/
def tint (e : Env K) (f : Surface K) (s : Source K) : Vec K :=
  scale (s.value : K) (scale (1 / 255) (surfaceColor e f s.color s.sky))

theorem wanted_iff (e : Env K) (f : Surface K) (s : Source K) (w : Vec K) : Wanted e f s w ↔ w = tint e f s := by
  unfold Wanted
  simp only [color_iff, exists_eq_left, tint, scale, mul_one_div]

theorem bright_iff (e : Env K) (f : Surface K) (s : Source K) : Bright e f s ↔ vmax (tint e f s) ≠ 0 := by
  unfold Bright
  constructor
  · rintro ⟨w, b, hw, hb, h⟩
    rw [wanted_iff] at hw
    rw [brightest_iff] at hb
    subst hw hb
    exact h
  · intro h
    exact ⟨_, _, (wanted_iff e f s _).2 rfl, (brightest_iff _ _).2 rfl, h⟩

/-- The colour with the brightest component at one, unless it is below. -/
def capped (c : Vec K) : Vec K := if vmax c > 1 then scale (1 / vmax c) c else c

/-- Strength and colour of a setting together. -/
theorem given_eq [IsStrictOrderedRing K] (n : Nat) (hn : 0 < n) (a : K) (c : Vec K) (st : Setting K)
    (h1 : st.intensity = vmax c * a / n) (h2 : st.color = capped c) :
    (vmax c > 1 → Strong n a 1 c st) ∧ (vmax c ≤ 1 → Strong n a (vmax c) c st) := by
  have hn' : (n : K) ≠ 0 := by exact_mod_cast hn.ne'
  constructor
  · intro h
    have h0 : vmax c ≠ 0 := (lt_trans zero_lt_one h).ne'
    unfold Strong given over
    rw [h1, h2, capped, if_pos h]
    simp only [scale, Vec.mk.injEq]
    refine ⟨?_, ?_, ?_⟩ <;> field_simp
  · intro h
    unfold Strong given over
    rw [h1, h2, capped, if_neg (not_lt.2 h)]
    simp only [Vec.mk.injEq]
    refine ⟨?_, ?_, ?_⟩ <;> field_simp

end Verif.Radiosity
