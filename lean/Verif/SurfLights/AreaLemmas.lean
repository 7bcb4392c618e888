import Verif.SurfLights.Spec
import Mathlib.Tactic.Linarith
import Mathlib.Tactic.Ring
import Mathlib.Tactic.FieldSimp
import Mathlib.Data.List.Chain

/-!
Lemmas: sums around a closed list that is parted into its front and its back.
-/

namespace Verif.SurfLights

variable {K : Type} [Field K] [LinearOrder K] [IsStrictOrderedRing K] {α : Type}

theorem along_append (E : α → α → K) (l : List α) (a : α) (r : List α) :
    along E (l ++ a :: r) = along E (l ++ [a]) + along E (a :: r) := by
  induction l with
  | nil => simp [along]
  | cons b l ih =>
    cases l with
    | nil => simp [along]
    | cons c l =>
      simp only [List.cons_append, along] at ih ⊢
      rw [ih]
      ring

theorem along_sub (E : α → α → K) (g : α → K) (a : α) (l : List α) (z : α) :
    along (fun x y => E x y - (g y - g x)) (a :: l ++ [z]) = along E (a :: l ++ [z]) - (g z - g a) := by
  induction l generalizing a with
  | nil => simp [along]
  | cons b l ih =>
    have := ih b
    simp only [List.cons_append, along] at this ⊢
    rw [this]
    ring

/-- Neighbours are not on opposite sides. -/
def Tame (d : α → K) (a b : α) : Prop := ¬ (d a > 0 ∧ d b < 0) ∧ ¬ (d a < 0 ∧ d b > 0)

theorem tame_symm {d : α → K} {a b : α} (h : Tame d a b) : Tame d b a :=
  ⟨fun h' => h.2 ⟨h'.2, h'.1⟩, fun h' => h.1 ⟨h'.2, h'.1⟩⟩

theorem tame_neg {d : α → K} {a b : α} (h : Tame d a b) : Tame (fun x => -d x) a b := by
  obtain ⟨h1, h2⟩ := h
  refine ⟨?_, ?_⟩
  · rintro ⟨h3, h4⟩
    exact h2 ⟨by linarith, by linarith⟩
  · rintro ⟨h3, h4⟩
    exact h1 ⟨by linarith, by linarith⟩

/-- The first that is in front, after one in the back, is on the plane. -/
theorem first_zero (d : α → K) (a : α) (l : List α) (h : (a :: l).IsChain (Tame d)) (ha : d a < 0) (x : α) (r : List α)
    (hx : l.filter (fun v => decide (d v ≥ 0)) = x :: r) : d x = 0 := by
  induction l generalizing a with
  | nil => cases hx
  | cons b l ih =>
    rw [List.isChain_cons_cons] at h
    have hb : d b ≤ 0 := by
      by_contra hb
      exact h.1.2 ⟨ha, not_le.1 hb⟩
    by_cases hb0 : d b = 0
    · rw [List.filter_cons_of_pos (by simp [hb0])] at hx
      cases hx
      exact hb0
    · have hb1 : d b < 0 := lt_of_le_of_ne hb hb0
      rw [List.filter_cons_of_neg (by simpa using hb1)] at hx
      exact ih b h.2 hb1 hx

theorem along_parts (d : α → K) (E : α → α → K) (hE : ∀ a b, d a = 0 → d b = 0 → E a b = 0) (l : List α)
    (h : l.IsChain (Tame d)) :
    along E l = along E (l.filter fun v => decide (d v ≥ 0)) + along E (l.filter fun v => decide (d v ≤ 0)) := by
  induction l with
  | nil => simp [along]
  | cons a l ih =>
    cases l with
    | nil =>
      by_cases h1 : d a ≥ 0 <;> by_cases h2 : d a ≤ 0 <;> simp [List.filter_cons, h1, h2, along]
    | cons b l =>
      have hc := h
      rw [List.isChain_cons_cons] at h
      have ih := ih h.2
      have hneg : (fun v : α => decide (-d v ≥ 0)) = fun v => decide (d v ≤ 0) := by
        funext v
        exact decide_eq_decide.2 ⟨fun h => by linarith, fun h => by linarith⟩
      rcases lt_trichotomy (d a) 0 with ha | ha | ha
      · have hb : d b ≤ 0 := by
          by_contra hb
          exact h.1.2 ⟨ha, not_le.1 hb⟩
        rw [List.filter_cons_of_neg (p := fun v => decide (d v ≥ 0)) (by simpa using ha),
          List.filter_cons_of_pos (p := fun v => decide (d v ≤ 0)) (by simpa using le_of_lt ha)]
        rw [List.filter_cons_of_pos (p := fun v => decide (d v ≤ 0)) (by simpa using hb)] at ih ⊢
        simp only [along]
        rw [ih]
        ring
      · rw [List.filter_cons_of_pos (p := fun v => decide (d v ≥ 0)) (by simp [ha]),
          List.filter_cons_of_pos (p := fun v => decide (d v ≤ 0)) (by simp [ha])]
        rcases lt_trichotomy (d b) 0 with hb | hb | hb
        · rw [List.filter_cons_of_neg (p := fun v => decide (d v ≥ 0)) (by simpa using hb),
            List.filter_cons_of_pos (p := fun v => decide (d v ≤ 0)) (by simpa using le_of_lt hb)] at ih ⊢
          have key : along E (a :: l.filter fun v => decide (d v ≥ 0)) = along E (l.filter fun v => decide (d v ≥ 0)) := by
            cases hf : l.filter (fun v => decide (d v ≥ 0)) with
            | nil => simp [along]
            | cons x r =>
              have hx := first_zero d b l h.2 hb x r hf
              simp [along, hE a x ha hx]
          rw [key]
          simp only [along]
          rw [ih]
          ring
        · rw [List.filter_cons_of_pos (p := fun v => decide (d v ≥ 0)) (by simp [hb]),
            List.filter_cons_of_pos (p := fun v => decide (d v ≤ 0)) (by simp [hb])] at ih ⊢
          simp only [along, hE a b ha hb]
          rw [ih]
          ring
        · rw [List.filter_cons_of_pos (p := fun v => decide (d v ≥ 0)) (by simpa using le_of_lt hb),
            List.filter_cons_of_neg (p := fun v => decide (d v ≤ 0)) (by simpa using hb)] at ih ⊢
          have key : along E (a :: l.filter fun v => decide (d v ≤ 0)) = along E (l.filter fun v => decide (d v ≤ 0)) := by
            cases hf : l.filter (fun v => decide (d v ≤ 0)) with
            | nil => simp [along]
            | cons x r =>
              have hx := first_zero (fun x => -d x) b l (h.2.imp fun _ _ => tame_neg) (by simpa using hb) x r
                (by rw [hneg]; exact hf)
              simp [along, hE a x ha (by linarith)]
          rw [key]
          simp only [along]
          rw [ih]
          ring
      · have hb : d b ≥ 0 := by
          by_contra hb
          exact h.1.1 ⟨ha, not_le.1 hb⟩
        rw [List.filter_cons_of_pos (p := fun v => decide (d v ≥ 0)) (by simpa using le_of_lt ha),
          List.filter_cons_of_neg (p := fun v => decide (d v ≤ 0)) (by simpa using ha)]
        rw [List.filter_cons_of_pos (p := fun v => decide (d v ≥ 0)) (by simpa using hb)] at ih ⊢
        simp only [along]
        rw [ih]
        ring

/-- The sum around a closed list. -/
def around (E : α → α → K) : List α → K
  | [] => 0
  | a :: l => along E (a :: l ++ [a])

theorem around_part (d : α → K) (E : α → α → K) (hE : ∀ a b, d a = 0 → d b = 0 → E a b = 0) (v : α) (l : List α)
    (h : (v :: l ++ [v]).IsChain (Tame d)) :
    around E ((v :: l).filter fun v => decide (d v ≥ 0)) = along E ((v :: l ++ [v]).filter fun v => decide (d v ≥ 0)) := by
  rw [List.filter_append]
  by_cases hv : d v ≥ 0
  · rw [List.filter_cons_of_pos (by simpa using hv)]
    have : [v].filter (fun v => decide (d v ≥ 0)) = [v] := by simp [hv]
    rw [this]
    rfl
  · have hv' := not_le.1 hv
    rw [List.filter_cons_of_neg (by simpa using hv')]
    have : [v].filter (fun v => decide (d v ≥ 0)) = [] := by simp [hv']
    rw [this, List.append_nil]
    cases hf : l.filter (fun v => decide (d v ≥ 0)) with
    | nil => rfl
    | cons x r =>
      have h1 : (v :: l).IsChain (Tame d) := h.left_of_append
      have hx := first_zero d v l h1 hv' x r hf
      have h2 : (v :: l.reverse).IsChain (Tame d) := by
        have : (v :: l.reverse) = (l ++ [v]).reverse := by simp
        rw [this, List.isChain_reverse]
        have h3 : (l ++ [v]).IsChain (Tame d) := by
          rw [List.cons_append] at h
          exact h.tail
        exact h3.imp fun _ _ => tame_symm
      have hr : l.reverse.filter (fun v => decide (d v ≥ 0)) = (x :: r).reverse := by
        rw [← hf, List.filter_reverse]
      obtain ⟨r', z, hz⟩ : ∃ r' z, x :: r = r' ++ [z] := ⟨_, _, (List.dropLast_append_getLast (List.cons_ne_nil x r)).symm⟩
      have hz0 := first_zero d v l.reverse h2 hv' z r'.reverse (by rw [hr, hz]; simp)
      change along E ((x :: r) ++ [x]) = _
      rw [hz, List.append_assoc, List.cons_append, along_append]
      simp [along, hE z x hz0 hx]

theorem around_parts (d : α → K) (E : α → α → K) (hE : ∀ a b, d a = 0 → d b = 0 → E a b = 0) (v : α) (l : List α)
    (h : (v :: l ++ [v]).IsChain (Tame d)) :
    around E (v :: l) = around E ((v :: l).filter fun v => decide (d v ≥ 0))
      + around E ((v :: l).filter fun v => decide (d v ≤ 0)) := by
  have hneg : (fun v : α => decide (-d v ≥ 0)) = fun v => decide (d v ≤ 0) := by
    funext v
    exact decide_eq_decide.2 ⟨fun h => by linarith, fun h => by linarith⟩
  have h2 := around_part (fun x => -d x) E (fun a b ha hb => hE a b (by linarith) (by linarith)) v l
    (h.imp fun _ _ => tame_neg)
  rw [hneg] at h2
  rw [around_part d E hE v l h, h2]
  exact along_parts d E hE _ h

theorem around_sub (E : α → α → K) (g : α → K) (l : List α) :
    around (fun x y => E x y - (g y - g x)) l = around E l := by
  cases l with
  | nil => rfl
  | cons a l =>
    change along _ (a :: l ++ [a]) = along _ (a :: l ++ [a])
    rw [along_sub]
    ring

end Verif.SurfLights
