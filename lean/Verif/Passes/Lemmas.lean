import Verif.Passes.Spec
import Mathlib.Tactic.Linarith
import Mathlib.Tactic.SplitIfs
import Mathlib.Tactic.Ring
import Mathlib.Data.List.Basic

/-! Helper lemmas for C217. -/

namespace Verif.Passes

open Spec

theorem mem_entities {p : ℚ → Bool} {lamps : List Lamp} {s : Step} (h : s ∈ entities p lamps) :
    ∃ i, s = .entity i ∧ Cast lamps (fun x => p x = true) i := by
  unfold entities at h
  obtain ⟨⟨l, i⟩, hm, he⟩ := List.mem_filterMap.1 h
  have hl : lamps[i]? = some l := by
    have := List.mem_zipIdx_iff_getElem?.1 hm
    simpa using this
  dsimp only at he
  by_cases h1 : l.localmin = true
  · rw [if_pos h1] at he; cases he
  · rw [if_neg h1] at he
    by_cases h2 : l.nostatic = true
    · rw [if_pos h2] at he; cases he
    · rw [if_neg h2] at he
      by_cases h3 : p l.light = true
      · rw [if_pos h3] at he
        exact ⟨i, (Option.some.inj he).symm, l, hl, by simpa using h1, by simpa using h2, h3⟩
      · rw [if_neg h3] at he; cases he

theorem mem_suns {p : ℚ → Bool} {ss : List ℚ} {s : Step} (h : s ∈ suns p ss) : ∃ i v, s = .sun i ∧ ss[i]? = some v ∧ p v = true := by
  unfold suns at h
  obtain ⟨⟨v, i⟩, hm, he⟩ := List.mem_filterMap.1 h
  have hl : ss[i]? = some v := by
    have := List.mem_zipIdx_iff_getElem?.1 hm
    simpa using this
  dsimp only at he
  by_cases h3 : p v = true
  · rw [if_pos h3] at he
    exact ⟨i, v, (Option.some.inj he).symm, hl, h3⟩
  · rw [if_neg h3] at he; cases he

/-! ### Counting -/

theorem count_entities_aux (p : ℚ → Bool) (i : ℕ) : ∀ (lamps : List Lamp) (n : ℕ),
    ((lamps.zipIdx n).filterMap fun l =>
      if l.1.localmin then none else if l.1.nostatic then none else if p l.1.light then some (Step.entity l.2) else none).count (.entity i)
      = if n ≤ i ∧ ∃ l, lamps[i - n]? = some l ∧ l.localmin = false ∧ l.nostatic = false ∧ p l.light = true then 1 else 0 := by
  intro lamps
  induction lamps with
  | nil => intro n; simp
  | cons a t ih =>
    intro n
    rw [List.zipIdx_cons, List.filterMap_cons]
    dsimp only
    by_cases ha : a.localmin = false ∧ a.nostatic = false ∧ p a.light = true
    · obtain ⟨h1, h2, h3⟩ := ha
      have he : (if a.localmin = true then none else if a.nostatic = true then none else if p a.light = true then some (Step.entity n) else none) = some (Step.entity n) := by
        rw [h1, h2, h3]; rfl
      simp only [he]
      rw [List.count_cons, ih]
      by_cases hi : n = i
      · subst hi
        rw [if_neg (by omega), if_pos (by simp), if_pos ⟨le_refl _, a, by simp, h1, h2, h3⟩]
      · have hb : (Step.entity n == Step.entity i) = false := by simpa using hi
        rw [hb]
        by_cases hle : n + 1 ≤ i
        · have hsub : i - n = (i - (n + 1)) + 1 := by omega
          rw [hsub, List.getElem?_cons_succ]
          simp only [hle, true_and, show n ≤ i by omega]
          simp
        · rw [if_neg (fun h => hle h.1), if_neg Bool.false_ne_true, if_neg (fun h => by have := h.1; omega)]
    · have he : (if a.localmin = true then none else if a.nostatic = true then none else if p a.light = true then some (Step.entity n) else none) = none := by
        by_cases h1 : a.localmin = true
        · rw [if_pos h1]
        · by_cases h2 : a.nostatic = true
          · rw [if_neg h1, if_pos h2]
          · rw [if_neg h1, if_neg h2, if_neg]
            intro h3; exact ha ⟨by simpa using h1, by simpa using h2, h3⟩
      simp only [he]
      rw [ih]
      by_cases hi : n = i
      · subst hi
        rw [if_neg (by omega), if_neg]
        rintro ⟨-, l, hl, h⟩
        have : a = l := by simpa using hl
        exact ha (this ▸ h)
      · by_cases hle : n + 1 ≤ i
        · have hsub : i - n = (i - (n + 1)) + 1 := by omega
          rw [hsub, List.getElem?_cons_succ]
          simp only [hle, true_and, show n ≤ i by omega]
        · rw [if_neg (fun h => hle h.1), if_neg (fun h => by have := h.1; omega)]

open Classical in
theorem count_entities (p : ℚ → Bool) (lamps : List Lamp) (i : ℕ) :
    (entities p lamps).count (.entity i) = if Cast lamps (fun x => p x = true) i then 1 else 0 := by
  have := count_entities_aux p i lamps 0
  unfold entities
  rw [this]
  unfold Cast
  simp only [Nat.sub_zero, Nat.zero_le, true_and]
  congr

theorem count_suns_aux (p : ℚ → Bool) (i : ℕ) : ∀ (ss : List ℚ) (n : ℕ),
    ((ss.zipIdx n).filterMap fun s => if p s.1 then some (Step.sun s.2) else none).count (.sun i)
      = if n ≤ i ∧ ∃ v, ss[i - n]? = some v ∧ p v = true then 1 else 0 := by
  intro ss
  induction ss with
  | nil => intro n; simp
  | cons a t ih =>
    intro n
    rw [List.zipIdx_cons, List.filterMap_cons]
    dsimp only
    by_cases h3 : p a = true
    · simp only [h3, if_true]
      rw [List.count_cons, ih]
      by_cases hi : n = i
      · subst hi
        rw [if_neg (by omega), if_pos (by simp), if_pos ⟨le_refl _, a, by simp, h3⟩]
      · have hb : (Step.sun n == Step.sun i) = false := by simpa using hi
        rw [hb]
        by_cases hle : n + 1 ≤ i
        · have hsub : i - n = (i - (n + 1)) + 1 := by omega
          rw [hsub, List.getElem?_cons_succ]
          simp only [hle, true_and, show n ≤ i by omega]
          simp
        · rw [if_neg (fun h => hle h.1), if_neg Bool.false_ne_true, if_neg (fun h => by have := h.1; omega)]
    · simp only [if_neg h3]
      rw [ih]
      by_cases hi : n = i
      · subst hi
        rw [if_neg (by omega), if_neg]
        rintro ⟨-, l, hl, h⟩
        have : a = l := by simpa using hl
        exact h3 (this ▸ h)
      · by_cases hle : n + 1 ≤ i
        · have hsub : i - n = (i - (n + 1)) + 1 := by omega
          rw [hsub, List.getElem?_cons_succ]
          simp only [hle, true_and, show n ≤ i by omega]
        · rw [if_neg (fun h => hle h.1), if_neg (fun h => by have := h.1; omega)]

theorem count_suns (p : ℚ → Bool) (ss : List ℚ) (i : ℕ) :
    (suns p ss).count (.sun i) = if (∃ v, ss[i]? = some v ∧ p v = true) then 1 else 0 := by
  have := count_suns_aux p i ss 0
  unfold suns
  rw [this]
  simp only [Nat.sub_zero, Nat.zero_le, true_and]

theorem entity_not_suns (p : ℚ → Bool) (ss : List ℚ) (i : ℕ) : Step.entity i ∉ suns p ss := fun h => by
  obtain ⟨_, _, h, _⟩ := mem_suns h; cases h

theorem sun_not_entities (p : ℚ → Bool) (lamps : List Lamp) (i : ℕ) : Step.sun i ∉ entities p lamps := fun h => by
  obtain ⟨_, h, _⟩ := mem_entities h; cases h

theorem mem_minimums {c : Conf} {f : Face} {s : Step} (hs : s ∈ minimums c f) : (∃ style v, s = .min style v) ∨ s = .autoMin := by
  unfold minimums at hs
  rcases List.mem_append.1 hs with hs | hs
  · rcases List.mem_append.1 hs with hs | hs
    · by_cases h : (if f.minlight > c.minlight then f.minlight else c.minlight) ≠ 0
      · rw [if_pos h] at hs
        exact Or.inl ⟨_, _, List.mem_singleton.1 hs⟩
      · rw [if_neg h] at hs; cases hs
    · split at hs
      · split at hs
        · exact Or.inl ⟨_, _, List.mem_singleton.1 hs⟩
        · cases hs
      · cases hs
  · split at hs
    · exact Or.inr (List.mem_singleton.1 hs)
    · cases hs

/-! ### Sums -/

theorem fold_entities_aux (e : Effect) (p : ℚ → Bool) : ∀ (lamps : List Lamp) (n : ℕ) (x : ℚ),
    ((lamps.zipIdx n).filterMap fun l =>
      if l.1.localmin then none else if l.1.nostatic then none else if p l.1.light then some (Step.entity l.2) else none).foldl (apply e) x
      = x + ((lamps.zipIdx n).map fun l => if l.1.localmin = false ∧ l.1.nostatic = false ∧ p l.1.light = true then e.lamp l.2 else 0).sum := by
  intro lamps
  induction lamps with
  | nil => intro n x; simp
  | cons a t ih =>
    intro n x
    rw [List.zipIdx_cons, List.filterMap_cons, List.map_cons, List.sum_cons]
    dsimp only
    by_cases ha : a.localmin = false ∧ a.nostatic = false ∧ p a.light = true
    · obtain ⟨h1, h2, h3⟩ := ha
      have he : (if a.localmin = true then none else if a.nostatic = true then none else if p a.light = true then some (Step.entity n) else none) = some (Step.entity n) := by
        rw [h1, h2, h3]; rfl
      simp only [he]
      rw [List.foldl_cons, ih, if_pos ⟨h1, h2, h3⟩]
      show x + e.lamp n + _ = _
      ring
    · have he : (if a.localmin = true then none else if a.nostatic = true then none else if p a.light = true then some (Step.entity n) else none) = none := by
        by_cases h1 : a.localmin = true
        · rw [if_pos h1]
        · by_cases h2 : a.nostatic = true
          · rw [if_neg h1, if_pos h2]
          · rw [if_neg h1, if_neg h2, if_neg]
            intro h3; exact ha ⟨by simpa using h1, by simpa using h2, h3⟩
      simp only [he]
      rw [ih, if_neg ha]
      ring

theorem fold_entities (e : Effect) (p : ℚ → Bool) (lamps : List Lamp) (x : ℚ) :
    (entities p lamps).foldl (apply e) x = x + lampSum e p lamps := fold_entities_aux e p lamps 0 x

theorem fold_suns_aux (e : Effect) (p : ℚ → Bool) : ∀ (ss : List ℚ) (n : ℕ) (x : ℚ),
    ((ss.zipIdx n).filterMap fun s => if p s.1 then some (Step.sun s.2) else none).foldl (apply e) x
      = x + ((ss.zipIdx n).map fun s => if p s.1 = true then e.sun s.2 else 0).sum := by
  intro ss
  induction ss with
  | nil => intro n x; simp
  | cons a t ih =>
    intro n x
    rw [List.zipIdx_cons, List.filterMap_cons, List.map_cons, List.sum_cons]
    dsimp only
    by_cases ha : p a = true
    · simp only [ha, if_true]
      rw [List.foldl_cons, ih]
      show x + e.sun n + _ = _
      ring
    · simp only [if_neg ha]
      rw [ih]
      ring

theorem fold_suns (e : Effect) (p : ℚ → Bool) (ss : List ℚ) (x : ℚ) :
    (suns p ss).foldl (apply e) x = x + sunSum e p ss := fold_suns_aux e p ss 0 x

theorem fold_bounces (e : Effect) : ∀ (n : ℕ) (x : ℚ),
    ((List.range n).flatMap fun d => [Step.bounced d]).foldl (apply e) x = x + ((List.range n).map e.bounced).sum := by
  intro n
  induction n with
  | zero => intro x; simp
  | succ n ih =>
    intro x
    rw [List.range_succ, List.flatMap_append, List.foldl_append, ih, List.map_append, List.sum_append]
    simp only [List.flatMap_cons, List.flatMap_nil, List.append_nil, List.foldl_cons, List.foldl_nil, List.map_cons, List.map_nil,
      List.sum_cons, List.sum_nil, apply]
    ring

end Verif.Passes
