import Verif.World.Vertex
import Mathlib.Algebra.Order.Group.Abs
import Mathlib.Order.WellFounded

/-!
Lemmas about the loops of `GetBrushExtents`.
-/

namespace Verif.World

open Geom BrushBsp World.Spec

variable {K : Type} [Field K] [LinearOrder K]

theorem mem_upTo {a b i : Nat} : i ∈ upTo a b ↔ a ≤ i ∧ i < b := by
  unfold upTo
  simp only [List.mem_map, List.mem_range]
  constructor
  · rintro ⟨j, hj, rfl⟩; omega
  · rintro ⟨h1, h2⟩; exact ⟨i - a, by omega, by omega⟩

theorem mem_triples {n i j k : Nat} : (i, j, k) ∈ triples n ↔ i < n - 2 ∧ i ≤ j ∧ j < n - 1 ∧ j ≤ k ∧ k < n := by
  unfold triples
  simp only [List.mem_flatMap, List.mem_map, mem_upTo, Prod.mk.injEq]
  constructor
  · rintro ⟨i', ⟨_, h1⟩, j', ⟨h2, h3⟩, k', ⟨h4, h5⟩, rfl, rfl, rfl⟩; omega
  · rintro ⟨h1, h2, h3, h4, h5⟩
    exact ⟨i, ⟨by omega, h1⟩, j, ⟨h2, h3⟩, k, ⟨h4, h5⟩, rfl, rfl, rfl⟩

theorem grow_le (e : WithBot K) (v : Vec K) : e ≤ grow e v ∧ ((|v.x| : K) : WithBot K) ≤ grow e v ∧
    ((|v.y| : K) : WithBot K) ≤ grow e v ∧ ((|v.z| : K) : WithBot K) ≤ grow e v := by
  unfold grow
  simp only [le_max_iff, le_refl, true_or, or_true, and_self]

theorem visit_le (eps : K) (fs : List (Plane K)) (e : WithBot K) (c : Nat × Nat × Nat) : e ≤ visit eps fs e c := by
  unfold visit
  split
  · exact le_refl _
  · split
    · split
      · exact le_refl _
      · split
        · exact (grow_le _ _).1
        · exact le_refl _
    · exact le_refl _

theorem foldl_le (eps : K) (fs : List (Plane K)) (l : List (Nat × Nat × Nat)) (e : WithBot K) :
    e ≤ l.foldl (visit eps fs) e := by
  induction l generalizing e with
  | nil => exact le_refl _
  | cons c l ih => exact le_trans (visit_le eps fs e c) (ih _)

/-- A corner that is looked at is below the result. -/
theorem foldl_visit {eps : K} {fs : List (Plane K)} {l : List (Nat × Nat × Nat)} {c : Nat × Nat × Nat} (hc : c ∈ l)
    {v : Vec K} (hv : ∀ e, visit eps fs e c = grow e v) (e : WithBot K) :
    ((|v.x| : K) : WithBot K) ≤ l.foldl (visit eps fs) e ∧ ((|v.y| : K) : WithBot K) ≤ l.foldl (visit eps fs) e ∧
      ((|v.z| : K) : WithBot K) ≤ l.foldl (visit eps fs) e := by
  induction l generalizing e with
  | nil => simp at hc
  | cons d l ih =>
    rcases List.mem_cons.1 hc with rfl | hc
    · have h1 := foldl_le eps fs l (visit eps fs e c)
      rw [List.foldl_cons]
      have h2 := grow_le e v
      rw [← hv e] at h2
      exact ⟨le_trans h2.2.1 h1, le_trans h2.2.2.1 h1, le_trans h2.2.2.2 h1⟩
    · exact ih hc _

theorem legal_iff {eps : K} {fs : List (Plane K)} {v : Vec K} : legal eps fs v = true ↔ ∀ f ∈ fs, f.distTo v ≤ eps := by
  unfold legal
  simp

variable [IsStrictOrderedRing K]

/-- Three planes of the brush with a corner: some order of them is looked at. -/
theorem sorted {fs : List (Plane K)} {a b c : Plane K} (ha : a ∈ fs) (hb : b ∈ fs) (hc : c ∈ fs) {v : Vec K}
    (za : a.distTo v = 0) (zb : b.distTo v = 0) (zc : c.distTo v = 0)
    (h : dot a.normal (cross b.normal c.normal) ≠ 0) :
    ∃ t ∈ triples fs.length, t.1 ≠ t.2.1 ∧ t.2.1 ≠ t.2.2 ∧ t.2.2 ≠ t.1 ∧ ∃ a' b' c', fs[t.1]? = some a' ∧
      fs[t.2.1]? = some b' ∧ fs[t.2.2]? = some c' ∧ intersection a' b' c' = some v := by
  obtain ⟨i, hi, ei⟩ := List.mem_iff_getElem.1 ha
  obtain ⟨j, hj, ej⟩ := List.mem_iff_getElem.1 hb
  obtain ⟨k, hk, ek⟩ := List.mem_iff_getElem.1 hc
  have fi : fs[i]? = some a := by rw [List.getElem?_eq_getElem hi, ei]
  have fj : fs[j]? = some b := by rw [List.getElem?_eq_getElem hj, ej]
  have fk : fs[k]? = some c := by rw [List.getElem?_eq_getElem hk, ek]
  have nij : i ≠ j := by
    rintro rfl
    rw [fi] at fj
    cases fj
    apply h; simp only [dot, cross]; ring
  have njk : j ≠ k := by
    rintro rfl
    rw [fj] at fk
    cases fk
    apply h; simp only [dot, cross]; ring
  have nki : k ≠ i := by
    rintro rfl
    rw [fk] at fi
    cases fi
    apply h; simp only [dot, cross]; ring
  have key : ∀ {i j k : Nat} {a b c : Plane K}, fs[i]? = some a → fs[j]? = some b → fs[k]? = some c → a.distTo v = 0 →
      b.distTo v = 0 → c.distTo v = 0 → dot a.normal (cross b.normal c.normal) ≠ 0 → i < j → j < k →
      ∃ t ∈ triples fs.length, t.1 ≠ t.2.1 ∧ t.2.1 ≠ t.2.2 ∧ t.2.2 ≠ t.1 ∧ ∃ a' b' c', fs[t.1]? = some a' ∧
        fs[t.2.1]? = some b' ∧ fs[t.2.2]? = some c' ∧ intersection a' b' c' = some v := by
    intro i j k a b c fi fj fk za zb zc h h1 h2
    have hk : k < fs.length := (List.getElem?_eq_some_iff.1 fk).1
    exact ⟨(i, j, k), mem_triples.2 (by omega), by simp only; omega, by simp only; omega, by simp only; omega, a, b, c,
      fi, fj, fk, intersection_eq za zb zc h⟩
  have n1 : dot a.normal (cross c.normal b.normal) ≠ 0 := by
    intro e; apply h; simp only [dot, cross] at e ⊢; linear_combination -e
  have n2 : dot b.normal (cross a.normal c.normal) ≠ 0 := by
    intro e; apply h; simp only [dot, cross] at e ⊢; linear_combination -e
  have n3 : dot b.normal (cross c.normal a.normal) ≠ 0 := by
    intro e; apply h; simp only [dot, cross] at e ⊢; linear_combination e
  have n4 : dot c.normal (cross a.normal b.normal) ≠ 0 := by
    intro e; apply h; simp only [dot, cross] at e ⊢; linear_combination e
  have n5 : dot c.normal (cross b.normal a.normal) ≠ 0 := by
    intro e; apply h; simp only [dot, cross] at e ⊢; linear_combination -e
  rcases lt_or_gt_of_ne nij with h1 | h1 <;> rcases lt_or_gt_of_ne njk with h2 | h2 <;>
    rcases lt_or_gt_of_ne nki with h3 | h3
  · omega
  · exact key fi fj fk za zb zc h h1 h2
  · exact key fk fi fj zc za zb n4 h3 h1
  · exact key fi fk fj za zc zb n1 h3 h2
  · exact key fj fk fi zb zc za n3 h2 h3
  · exact key fj fi fk zb za zc n2 h1 h3
  · exact key fk fj fi zc zb za n5 h2 h1
  · omega

/-- The extents of a brush have all its points. -/
theorem brush_le {eps : K} (heps : 0 ≤ eps) {fs : List (Plane K)} (hb : Bounded fs) {q : Vec K} (hq : In fs q) :
    ((|q.x| : K) : WithBot K) ≤ (triples fs.length).foldl (visit eps fs) ⊥ ∧
    ((|q.y| : K) : WithBot K) ≤ (triples fs.length).foldl (visit eps fs) ⊥ ∧
    ((|q.z| : K) : WithBot K) ≤ (triples fs.length).foldl (visit eps fs) ⊥ := by
  have corner : ∀ g : Vec K, ∃ v, dot g q ≤ dot g v ∧
      ((|v.x| : K) : WithBot K) ≤ (triples fs.length).foldl (visit eps fs) ⊥ ∧
      ((|v.y| : K) : WithBot K) ≤ (triples fs.length).foldl (visit eps fs) ⊥ ∧
      ((|v.z| : K) : WithBot K) ≤ (triples fs.length).foldl (visit eps fs) ⊥ := by
    intro g
    obtain ⟨v, hv, hg, a, ha, b, hb', c, hc, za, zb, zc, hd⟩ := vertex hb hq g
    refine ⟨v, hg, ?_⟩
    obtain ⟨t, ht, d1, d2, d3, a', b', c', ea, eb, ec, ei⟩ := sorted ha hb' hc za zb zc hd
    apply foldl_visit ht
    intro e
    have hl : legal eps fs v = true := legal_iff.2 fun f hf => le_trans (hv f hf) heps
    unfold visit
    rw [if_neg (by tauto)]
    simp only [ea, eb, ec, ei, hl, if_true]
  have one : ∀ (x : K) (m : WithBot K), (∃ y, x ≤ y ∧ ((|y| : K) : WithBot K) ≤ m) → (∃ y, -x ≤ -y ∧ ((|y| : K) : WithBot K) ≤ m) →
      ((|x| : K) : WithBot K) ≤ m := by
    rintro x m ⟨y, h1, h2⟩ ⟨z, h3, h4⟩
    rcases le_total 0 x with h | h
    · refine le_trans (WithBot.coe_le_coe.2 ?_) h2
      rw [abs_of_nonneg h]
      exact le_trans h1 (le_abs_self y)
    · refine le_trans (WithBot.coe_le_coe.2 ?_) h4
      rw [abs_of_nonpos h]
      exact le_trans h3 (neg_le_abs z)
  refine ⟨one _ _ ?_ ?_, one _ _ ?_ ?_, one _ _ ?_ ?_⟩
  · obtain ⟨v, hg, h, _, _⟩ := corner ⟨1, 0, 0⟩
    simp only [dot] at hg
    exact ⟨v.x, by linarith, h⟩
  · obtain ⟨v, hg, h, _, _⟩ := corner ⟨-1, 0, 0⟩
    simp only [dot] at hg
    exact ⟨v.x, by linarith, h⟩
  · obtain ⟨v, hg, _, h, _⟩ := corner ⟨0, 1, 0⟩
    simp only [dot] at hg
    exact ⟨v.y, by linarith, h⟩
  · obtain ⟨v, hg, _, h, _⟩ := corner ⟨0, -1, 0⟩
    simp only [dot] at hg
    exact ⟨v.y, by linarith, h⟩
  · obtain ⟨v, hg, _, _, h⟩ := corner ⟨0, 0, 1⟩
    simp only [dot] at hg
    exact ⟨v.z, by linarith, h⟩
  · obtain ⟨v, hg, _, _, h⟩ := corner ⟨0, 0, -1⟩
    simp only [dot] at hg
    exact ⟨v.z, by linarith, h⟩

omit [IsStrictOrderedRing K] in
/-- A coordinate of the extents is one of a point of the brush, up to `eps`. -/
theorem brush_attained {eps : K} {fs : List (Plane K)} {e : K}
    (h : (triples fs.length).foldl (visit eps fs) ⊥ = (e : WithBot K)) :
    ∃ v, (∀ f ∈ fs, f.distTo v ≤ eps) ∧ (e = |v.x| ∨ e = |v.y| ∨ e = |v.z|) := by
  have key : ∀ (l : List (Nat × Nat × Nat)) (e0 : WithBot K),
      (e0 = ⊥ ∨ ∃ v, (∀ f ∈ fs, f.distTo v ≤ eps) ∧
        (e0 = ((|v.x| : K) : WithBot K) ∨ e0 = ((|v.y| : K) : WithBot K) ∨ e0 = ((|v.z| : K) : WithBot K))) →
      (l.foldl (visit eps fs) e0 = ⊥ ∨ ∃ v, (∀ f ∈ fs, f.distTo v ≤ eps) ∧
        (l.foldl (visit eps fs) e0 = ((|v.x| : K) : WithBot K) ∨ l.foldl (visit eps fs) e0 = ((|v.y| : K) : WithBot K) ∨
          l.foldl (visit eps fs) e0 = ((|v.z| : K) : WithBot K))) := by
    intro l
    induction l with
    | nil => intro e0 h; exact h
    | cons c l ih =>
      intro e0 h0
      rw [List.foldl_cons]
      apply ih
      unfold visit
      split
      · exact h0
      · split
        · split
          · exact h0
          · split
            · rename_i v _ hl
              unfold grow
              rcases max_choice (max (max e0 ((|v.x| : K) : WithBot K)) ((|v.y| : K) : WithBot K)) ((|v.z| : K) : WithBot K)
                with h1 | h1
              · rw [h1]
                rcases max_choice (max e0 ((|v.x| : K) : WithBot K)) ((|v.y| : K) : WithBot K) with h2 | h2
                · rw [h2]
                  rcases max_choice e0 ((|v.x| : K) : WithBot K) with h3 | h3
                  · rw [h3]; exact h0
                  · rw [h3]; exact Or.inr ⟨v, legal_iff.1 hl, Or.inl rfl⟩
                · rw [h2]; exact Or.inr ⟨v, legal_iff.1 hl, Or.inr (Or.inl rfl)⟩
              · rw [h1]; exact Or.inr ⟨v, legal_iff.1 hl, Or.inr (Or.inr rfl)⟩
            · exact h0
        · exact h0
  rcases key (triples fs.length) ⊥ (Or.inl rfl) with h1 | ⟨v, hv, h1⟩
  · rw [h1] at h; cases h
  · rw [h] at h1
    refine ⟨v, hv, ?_⟩
    rcases h1 with h1 | h1 | h1
    · exact Or.inl (WithBot.coe_injective h1)
    · exact Or.inr (Or.inl (WithBot.coe_injective h1))
    · exact Or.inr (Or.inr (WithBot.coe_injective h1))

end Verif.World
