import Verif.Suns.LampProps
import Verif.Suns.SunProps

/-! C186, C183: each random number is used once; a light without samples has no deviance. -/

namespace Verif.Suns

open Verif.Geom Verif.Phong

theorem copies_get (r : ℕ → ℝ) (l : Lamp) (n at' i : ℕ) (h : i < n) :
    (copies r l n at')[i]? = some (copyAt l (r (at' + 3 * i)) (r (at' + 3 * i + 1)) (r (at' + 3 * i + 2))) := by
  induction n generalizing at' i with
  | zero => omega
  | succ n ih =>
    cases i with
    | zero => simp [copies]
    | succ i =>
      rw [copies, List.getElem?_cons_succ, ih (at' + 3) i (by omega)]
      rw [show at' + 3 + 3 * i = at' + 3 * (i + 1) by ring]

theorem jitterNew_get (r : ℕ → ℝ) (ls : List Lamp) (at' i : ℕ) (h : i < (jitterNew r at' ls).length) :
    ∃ l ∈ ls, (jitterNew r at' ls)[i]? = some (copyAt l (r (at' + 3 * i)) (r (at' + 3 * i + 1)) (r (at' + 3 * i + 2))) := by
  induction ls generalizing at' i with
  | nil => simp [jitterNew] at h
  | cons l ls ih =>
    simp only [jitterNew, List.length_append] at h ⊢
    by_cases hi : i < (jitterOne r at' l).length
    · refine ⟨l, List.mem_cons_self, ?_⟩
      rw [List.getElem?_append_left hi]
      unfold jitterOne at hi ⊢
      split at hi
      · simp at hi
      · next hs =>
        rw [if_neg hs]
        rw [copies_length] at hi
        exact copies_get r l _ at' i hi
    · obtain ⟨m, hm, e⟩ := ih (at' + 3 * (jitterOne r at' l).length) (i - (jitterOne r at' l).length) (by omega)
      refine ⟨m, List.mem_cons_of_mem _ hm, ?_⟩
      rw [List.getElem?_append_right (by omega), e]
      rw [show at' + 3 * (jitterOne r at' l).length + 3 * (i - (jitterOne r at' l).length) = at' + 3 * i by omega]

/-- C186: the copies are placed independently: copy number `i` of all lights is off its light by the random numbers `3 i`, `3 i + 1`, `3 i + 2`, and
by no others; a number 0 stands for one deviance down, a number 1 for one deviance up. -/
theorem jitter_draws (r : ℕ → ℝ) (at' : ℕ) (ls : List Lamp) :
    ∃ new, jitterAll r at' ls = ls ++ new ∧ ∀ i m, new[i]? = some m → ∃ l ∈ ls,
      m.origin.x = l.origin.x + (2 * r (at' + 3 * i) - 1) * l.deviance ∧
      m.origin.y = l.origin.y + (2 * r (at' + 3 * i + 1) - 1) * l.deviance ∧
      m.origin.z = l.origin.z + (2 * r (at' + 3 * i + 2) - 1) * l.deviance := by
  refine ⟨jitterNew r at' ls, rfl, ?_⟩
  intro i m hm
  obtain ⟨l, hl, e⟩ := jitterNew_get r ls at' i (List.getElem?_eq_some_iff.1 hm).1
  rw [e] at hm
  cases hm
  refine ⟨l, hl, ?_, ?_, ?_⟩ <;> simp only [copyAt, nudge] <;> ring

/-- A light with three samples has two copies. -/
example : ∃ m, (jitterNew (fun n => (n : ℝ)) 0 [{ plain with sun := false, samples := 3, deviance := 1 }])[1]? = some m := by
  refine ⟨_, copies_get _ _ 2 0 1 (by norm_num)⟩

/-- C184: a sun entity with one sample (`_samples 1`, or no deviance) is one sun, not `-sunsamples` of them, whatever its key for the deviance is. -/
theorem one_sample_one_sun (cfg : Cfg) (place : EntData.Dict → Vec ℝ) (r : ℕ → ℝ) (fuel at' : ℕ) (global : ℝ) (addmin : Bool)
    (raw : Illum.Raw) (l : Lamp) (h1 : (readLamp global addmin raw l).samples = 1) (hs : l.sun = true) (hl : (readLamp global addmin raw l).light > 0) :
    ∃ lm s last, entitySuns fuel cfg place r at' [readLamp global addmin raw l] = some (lm, [s], last) := by
  have hd : (readLamp global addmin raw l).deviance = 0 := by
    have : (Illum.checkFields global addmin raw).2 = 1 := h1
    simp [readLamp, this]
  have hsun : isSun (readLamp global addmin raw l) := ⟨hs, hl⟩
  generalize readLamp global addmin raw l = m at *
  have hset : ∃ s, setupSun fuel cfg r at' m.light m.look (sunDir place m) m.deviance = some ([s], at') := by
    unfold setupSun sunCount
    rw [hd]
    simp only [if_true, one_ne_zero, if_false, Nat.sub_self, moreSuns, addSun, Nat.cast_one, div_one, if_neg (ne_of_gt hl), List.append_nil]
    exact ⟨_, rfl⟩
  obtain ⟨s, hset⟩ := hset
  refine ⟨[{ m with light := 0 }], s, at', ?_⟩
  unfold entitySuns
  rw [if_pos hsun, hset]
  simp only [entitySuns, List.append_nil]

/-- The key `_samples 1` with a deviance of 5. -/
example : (readLamp 1 false { keys 200 .linear 5 with samples := 1 } plain).samples = 1 ∧ plain.sun = true ∧
    (readLamp 1 false { keys 200 .linear 5 with samples := 1 } plain).light > 0 := by
  refine ⟨?_, rfl, ?_⟩
  · show Illum.jitter _ _ = 1
    simp [Illum.jitter, keys]
  · simp [readLamp, Illum.checkFields, keys, Illum.jitter, Illum.divides]

end Verif.Suns
