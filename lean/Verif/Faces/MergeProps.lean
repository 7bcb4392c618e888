import Verif.Faces.MergeSpec
import Verif.Faces.OutlineLemmas
import Mathlib.Tactic.LinearCombination
import Mathlib.Tactic.Linarith
import Mathlib.Algebra.Order.Field.Rat

/-! Merging of faces (C59, C89). -/

set_option linter.unusedSectionVars false

namespace Verif.Faces

open Spec Geom

/-! ## The list -/

theorem mergeLoop_spec {F : Type} (try' : F → F → Option F) :
    ∀ (m : Nat) (rest before : List F) (face : F) (merged : Nat), before.length + rest.length = m →
      ∃ (N : Nat) (out : List F) (k : Nat),
        (∀ fuel, N ≤ fuel → mergeLoop try' fuel face before rest merged = some (out, k)) ∧
        out.length + k = before.length + rest.length + 1 + merged ∧ merged ≤ k ∧
        ((before ++ rest).Pairwise (fun a b => try' b a = none) → (∀ f ∈ before, try' face f = none) →
          Unmergeable try' out) ∧
        (∀ (A : Type) [AddCommMonoid A] (μ : F → A), (∀ a b c, try' a b = some c → μ c = μ a + μ b) →
          (out.map μ).sum = μ face + ((before ++ rest).map μ).sum) := by
  intro m
  induction m using Nat.strong_induction_on with
  | _ m ihm =>
    intro rest
    induction rest with
    | nil =>
      intro before face merged _
      refine ⟨0, before ++ [face], merged, ?_, by simp, Nat.le_refl _, ?_, ?_⟩
      · intro fuel _
        unfold mergeLoop
        rfl
      · intro h1 h2
        unfold Unmergeable
        rw [List.append_nil] at h1
        rw [List.pairwise_append]
        refine ⟨h1, List.pairwise_singleton _ _, ?_⟩
        intro a ha b hb
        rw [List.mem_singleton.mp hb]
        exact h2 a ha
      · intro A _ μ _
        simp [add_comm]
    | cons f rest ih =>
      intro before face merged hm
      rcases ht : try' face f with _ | newf
      · obtain ⟨N, out, k, q1, q2, q3, q4, q5⟩ := ih (before ++ [f]) face merged (by simp at hm ⊢; omega)
        refine ⟨N + 1, out, k, ?_, by simp at q2 ⊢; omega, q3, ?_, ?_⟩
        · intro fuel hf
          obtain ⟨fuel, rfl⟩ : ∃ x, fuel = x + 1 := ⟨fuel - 1, by omega⟩
          unfold mergeLoop
          simp only [ht]
          exact q1 fuel (by omega)
        · intro h1 h2
          refine q4 (by simpa using h1) ?_
          intro x hx
          rcases List.mem_append.mp hx with hx | hx
          · exact h2 x hx
          · rw [List.mem_singleton.mp hx]; exact ht
        · intro A _ μ hμ
          rw [q5 A μ hμ]
          simp
      · obtain ⟨N, out, k, q1, q2, q3, q4, q5⟩ := ihm (before ++ rest).length (by simp at hm ⊢; omega) (before ++ rest) []
          newf (merged + 1) (by simp)
        refine ⟨N + 1, out, k, ?_, by simp at q2 ⊢; omega, by omega, ?_, ?_⟩
        · intro fuel hf
          obtain ⟨fuel, rfl⟩ : ∃ x, fuel = x + 1 := ⟨fuel - 1, by omega⟩
          unfold mergeLoop
          simp only [ht]
          exact q1 fuel (by omega)
        · intro h1 _
          refine q4 ?_ (by simp)
          simp only [List.nil_append]
          refine h1.sublist ?_
          exact List.Sublist.append_left (List.sublist_cons_self _ _) _
        · intro A _ μ hμ
          rw [q5 A μ hμ, hμ _ _ _ ht]
          simp only [List.nil_append, List.map_append, List.sum_append, List.map_cons, List.sum_cons]
          rw [add_assoc, add_left_comm (μ f)]

theorem mergeAll_spec {F : Type} (try' : F → F → Option F) (input : List F) (st : List F × Nat) :
    ∃ (N : Nat) (out : List F) (k : Nat), (∀ fuel, N ≤ fuel → mergeAll try' fuel input st = some (out, k)) ∧
      out.length + k = input.length + st.1.length + st.2 ∧ st.2 ≤ k ∧
      (Unmergeable try' st.1 → Unmergeable try' out) ∧
      (∀ (A : Type) [AddCommMonoid A] (μ : F → A), (∀ a b c, try' a b = some c → μ c = μ a + μ b) →
        (out.map μ).sum = (st.1.map μ).sum + (input.map μ).sum) := by
  induction input generalizing st with
  | nil => exact ⟨0, st.1, st.2, fun _ _ => rfl, by simp, Nat.le_refl _, fun h => h, by simp⟩
  | cons f fs ih =>
    obtain ⟨N, out, k, q1, q2, q3, q4, q5⟩ := mergeLoop_spec try' st.1.length st.1 [] f st.2 (by simp)
    obtain ⟨M, out', k', r1, r2, r3, r4, r5⟩ := ih (out, k)
    refine ⟨max N M, out', k', ?_, ?_, by simp at r3; omega, ?_, ?_⟩
    · intro fuel hf
      unfold mergeAll mergeFaceToList
      rw [q1 fuel (by omega)]
      exact r1 fuel (by omega)
    · simp at r2 q2 ⊢; omega
    · intro h
      exact r4 (q4 h (by simp))
    · intro A _ μ hμ
      rw [r5 A μ hμ]
      simp only
      rw [q5 A μ hμ]
      simp only [List.nil_append, List.map_cons, List.sum_cons]
      rw [add_comm (μ f), add_assoc]

/-- C59: merging a list of faces ends, whatever decides which faces can be merged; the number of faces and the number of
merges add up to the number of faces before, and in the end no face can be merged with one before it. -/
theorem merge_list {F : Type} (try' : F → F → Option F) (input : List F) (merged : Nat) :
    ∃ (N : Nat) (out : List F) (k : Nat), (∀ fuel, N ≤ fuel → mergeFaceList try' fuel input merged = some (out, merged + k)) ∧
      out.length + k = input.length ∧ Unmergeable try' out := by
  obtain ⟨N, out, k, q1, q2, q3, q4, -⟩ := mergeAll_spec try' input ([], merged)
  simp only [List.length_nil, Nat.add_zero] at q2 q3
  refine ⟨N, out, k - merged, ?_, by omega, q4 List.Pairwise.nil⟩
  intro fuel hf
  have : merged + (k - merged) = k := by omega
  rw [this]
  exact q1 fuel hf

/-- C59: a quantity that each merge adds up, like the area, is the same for all faces together before and after. -/
theorem merge_list_measure {F : Type} (try' : F → F → Option F) (input : List F) (merged : Nat) {A : Type}
    [AddCommMonoid A] (μ : F → A) (hμ : ∀ a b c, try' a b = some c → μ c = μ a + μ b) :
    ∃ (N : Nat) (out : List F) (k : Nat), (∀ fuel, N ≤ fuel → mergeFaceList try' fuel input merged = some (out, k)) ∧
      (out.map μ).sum = (input.map μ).sum := by
  obtain ⟨N, out, k, q1, -, -, -, q5⟩ := mergeAll_spec try' input ([], merged)
  exact ⟨N, out, k, q1, by simpa using q5 A μ hμ⟩

example : mergeFaceList (fun a b : Nat => if a + b ≤ 5 then some (a + b) else none) 50 [1, 4, 3, 2, 9] 0 = some ([5, 5, 9], 2) := by
  decide +kernel

/-! ## Two faces -/

variable {K : Type} [Field K] [LinearOrder K] [IsStrictOrderedRing K]

theorem commonEdge_some {eps : K} {w1 w2 : List (Vec K)} {i j : Nat} (h : commonEdge eps w1 w2 = some (i, j)) :
    i < w1.length ∧ j < w2.length ∧ closeTo eps (vat w1 i) (vat w2 (j + 1)) = true ∧
      closeTo eps (vat w1 (i + 1)) (vat w2 j) = true := by
  unfold commonEdge at h
  rw [List.findSome?_eq_some_iff] at h
  obtain ⟨l1, a, l2, hl, he, -⟩ := h
  rw [Option.map_eq_some_iff] at he
  obtain ⟨b, hb, he⟩ := he
  injection he with e1 e2
  subst e1 e2
  have hi : a ∈ List.range w1.length := by rw [hl]; simp
  have hj := List.mem_of_find?_eq_some hb
  have := List.find?_some hb
  rw [Bool.and_eq_true] at this
  exact ⟨by simpa using hi, by simpa using hj, this.1, this.2⟩

/-- What a merge yields. -/
theorem tryMerge_some {cfg : MergeCfg K} {f1 f2 f : MFace K} (h : tryMerge cfg f1 f2 = some f) :
    f1.planenum = f2.planenum ∧ f1.texinfo = f2.texinfo ∧ f1.lmshift = f2.lmshift ∧ f1.sky = f2.sky ∧
      (cfg.noLiquids = true → f1.liquid = f2.liquid) ∧
      ∃ i j, commonEdge cfg.equal f1.w f2.w = some (i, j) ∧
        slope cfg f1.planenum (vsub (vat f1.w i) (vat f1.w (i + f1.w.length - 1))) (vat f1.w i) (vat f2.w (j + 2)) ≤ cfg.continuous ∧
        slope cfg f1.planenum (vsub (vat f1.w (i + 2)) (vat f1.w (i + 1))) (vat f1.w (i + 1)) (vat f2.w (j + f2.w.length - 1))
          ≤ cfg.continuous ∧
        f = { f1 with w := copyFrom f1.w i (decide (slope cfg f1.planenum (vsub (vat f1.w (i + 2)) (vat f1.w (i + 1)))
                (vat f1.w (i + 1)) (vat f2.w (j + f2.w.length - 1)) < -cfg.continuous)) ++
              copyFrom f2.w j (decide (slope cfg f1.planenum (vsub (vat f1.w i) (vat f1.w (i + f1.w.length - 1)))
                (vat f1.w i) (vat f2.w (j + 2)) < -cfg.continuous)) } := by
  unfold tryMerge at h
  split at h
  · cases h
  · rename_i h1
    push Not at h1
    split at h
    · cases h
    · rename_i h2
      push Not at h2
      split at h
      · cases h
      · rename_i h3
        push Not at h3
        split at h
        · cases h
        · rename_i i j he
          simp only at h
          split at h
          · cases h
          · rename_i h4
            split at h
            · cases h
            · rename_i h5
              refine ⟨h1.2.2.1, h1.2.2.2.1, h1.2.2.2.2, h3, h2, i, j, he, not_lt.mp h4, not_lt.mp h5, ?_⟩
              exact (Option.some.inj h).symm

/-- C89: only faces on the same plane with the same texture and light map scale are merged, never across the border of
the sky, nor across that of a liquid if so requested; the merged face has these attributes too. -/
theorem merge_attributes {cfg : MergeCfg K} {f1 f2 f : MFace K} (h : tryMerge cfg f1 f2 = some f) :
    f1.planenum = f2.planenum ∧ f1.texinfo = f2.texinfo ∧ f1.lmshift = f2.lmshift ∧ f1.sky = f2.sky ∧
      (cfg.noLiquids = true → f1.liquid = f2.liquid) ∧ f.planenum = f1.planenum ∧ f.texinfo = f1.texinfo ∧
      f.lmshift = f1.lmshift ∧ f.sky = f1.sky ∧ f.liquid = f1.liquid ∧ ∀ p ∈ f.w, p ∈ f1.w ∨ p ∈ f2.w := by
  obtain ⟨a1, a2, a3, a4, a5, i, j, -, -, -, rfl⟩ := tryMerge_some h
  refine ⟨a1, a2, a3, a4, a5, rfl, rfl, rfl, rfl, rfl, ?_⟩
  have hc : ∀ (w : List (Vec K)) (i : Nat) (keep : Bool), ∀ p ∈ copyFrom w i keep, p ∈ w := by
    intro w i keep p hp
    have : p ∈ w.drop (i + 1) ++ w.take i := by
      unfold copyFrom at hp
      split at hp
      · exact hp
      · exact List.mem_of_mem_drop hp
    rcases List.mem_append.mp this with h | h
    · exact List.mem_of_mem_drop h
    · exact List.mem_of_mem_take h
  intro p hp
  rcases List.mem_append.mp hp with hp | hp
  · exact Or.inl (hc _ _ _ p hp)
  · exact Or.inr (hc _ _ _ p hp)

end Verif.Faces
