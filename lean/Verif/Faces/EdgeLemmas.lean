import Verif.Faces.EdgeSpec
import Mathlib.Algebra.Order.Ring.Abs
import Mathlib.Data.List.Chain
import Mathlib.Tactic.Set
import Mathlib.Tactic.Ring
import Mathlib.Tactic.Linarith

/-! Lemmas about the vertices on edges. -/

namespace Verif.Faces

open Verif.Geom Spec

variable {K : Type} [Field K] [LinearOrder K]

theorem dot_vsub (l : Line K) (p : Vec K) : dot (vsub p l.start) l.dir = Param l p := rfl

theorem pointOnEdge_some {l : Line K} {p : Vec K} {a b d : K} :
    pointOnEdge l p a b = some d ↔ d = Param l p ∧ InsideEdge l a b p := by
  have hdef : pointOnEdge l p a b = if Param l p ≤ l.rnd a ∨ Param l p ≥ l.rnd b then none
      else if dot (vsub p (along l.start l.dir (Param l p))) (vsub p (along l.start l.dir (Param l p))) > l.eps * l.eps
        then none else some (Param l p) := rfl
  rw [hdef]
  unfold InsideEdge
  have hn : dot (vsub p (along l.start l.dir (Param l p))) (vsub p (along l.start l.dir (Param l p))) > l.eps * l.eps ↔
      ¬ Near l p := by
    unfold Near dot vsub along
    simp only [not_le, gt_iff_lt]
  by_cases h1 : Param l p ≤ l.rnd a ∨ Param l p ≥ l.rnd b
  · rw [if_pos h1]
    constructor
    · intro h; cases h
    · rintro ⟨-, -, h2, h3⟩
      rcases h1 with h1 | h1
      · exact absurd h2 (not_lt.mpr h1)
      · exact absurd h3 (not_lt.mpr h1)
  · rw [if_neg h1]
    rw [not_or, not_le, ge_iff_le, not_le] at h1
    by_cases h2 : Near l p
    · rw [if_neg (fun h => hn.mp h h2)]
      constructor
      · intro h; cases h; exact ⟨rfl, h2, h1⟩
      · rintro ⟨rfl, -⟩; rfl
    · rw [if_pos (hn.mpr h2)]
      constructor
      · intro h; cases h
      · rintro ⟨-, h3, -⟩; exact absurd h3 h2

theorem pointOnEdge_none {l : Line K} {p : Vec K} {a b : K} :
    pointOnEdge l p a b = none ↔ ¬ InsideEdge l a b p := by
  constructor
  · intro h hi
    rw [pointOnEdge_some.mpr ⟨rfl, hi⟩] at h
    cases h
  · intro h
    cases hd : pointOnEdge l p a b with
    | none => rfl
    | some d => exact absurd (pointOnEdge_some.mp hd).2 h

theorem chain_join {α : Type} {R : α → α → Prop} {a : List α} {m : α} {b : List α}
    (h1 : List.IsChain R (a ++ [m])) (h2 : List.IsChain R (m :: b)) : List.IsChain R (a ++ m :: b) := by
  induction a with
  | nil => exact h2
  | cons x a ih =>
    cases a with
    | nil =>
      simp only [List.cons_append, List.nil_append] at h1 ⊢
      rw [List.isChain_cons_cons] at h1 ⊢
      exact ⟨h1.1, h2⟩
    | cons y a =>
      simp only [List.cons_append] at h1 ih ⊢
      rw [List.isChain_cons_cons] at h1 ⊢
      exact ⟨h1.1, ih h1.2⟩

/-- A step between neighbouring places stays within the edge and skips no candidate. -/
def Step (l : Line K) (pos : Nat → Vec K) (start stop : K) (cands out : List Nat) (p2 : Nat) (a b : K) : Prop :=
  (l.rnd start ≤ l.rnd a ∧ l.rnd b ≤ l.rnd stop) ∧
    ∀ j ∈ cands, j ∉ out → j ≠ p2 → ¬ InsideEdge l a b (pos j)

theorem testEdge_main (l : Line K) (pos : Nat → Vec K) (hr : Rounding l.rnd) :
    ∀ (cands : List Nat) (start stop : K) (p1 p2 : Nat), p1 ≠ p2 →
      ∃ mids, testEdge l pos start stop p1 p2 cands = p1 :: mids ∧
        (∀ j ∈ mids, j ∈ cands ∧ InsideEdge l start stop (pos j)) ∧
        mids.Pairwise (fun a b => Param l (pos a) < l.rnd (Param l (pos b)) ∨ l.rnd (Param l (pos a)) < Param l (pos b)) ∧
        List.IsChain (Step l pos start stop cands (p1 :: mids) p2)
          (start :: mids.map (fun j => Param l (pos j)) ++ [stop]) := by
  intro cands
  induction cands with
  | nil =>
    intro start stop p1 p2 h
    refine ⟨[], ?_, ?_, List.Pairwise.nil, ?_⟩
    · unfold testEdge; rw [if_neg h]
    · intro j hj; cases hj
    · simp only [List.map_nil, List.cons_append, List.nil_append]
      rw [List.isChain_cons_cons]
      exact ⟨⟨⟨le_refl _, le_refl _⟩, fun j hj => by cases hj⟩, List.IsChain.singleton _⟩
  | cons j js ih =>
    intro start stop p1 p2 h
    have hskip : (j = p1 ∨ j = p2 ∨ ¬ InsideEdge l start stop (pos j)) →
        ∃ mids, testEdge l pos start stop p1 p2 js = p1 :: mids ∧
          (∀ i ∈ mids, i ∈ j :: js ∧ InsideEdge l start stop (pos i)) ∧
          mids.Pairwise (fun a b => Param l (pos a) < l.rnd (Param l (pos b)) ∨ l.rnd (Param l (pos a)) < Param l (pos b)) ∧
          List.IsChain (Step l pos start stop (j :: js) (p1 :: mids) p2)
            (start :: mids.map (fun j => Param l (pos j)) ++ [stop]) := by
      intro hj
      obtain ⟨mids, h1, h2, h3, h4⟩ := ih start stop p1 p2 h
      refine ⟨mids, h1, fun i hi => ⟨List.mem_cons_of_mem _ (h2 i hi).1, (h2 i hi).2⟩, h3, ?_⟩
      refine h4.imp ?_
      rintro a b ⟨hab, hc⟩
      refine ⟨hab, ?_⟩
      intro i hi hout hp2 hin
      rcases List.mem_cons.mp hi with rfl | hi
      · rcases hj with hj | hj | hj
        · exact hout (hj ▸ List.mem_cons_self)
        · exact hp2 hj
        · exact hj ⟨hin.1, lt_of_le_of_lt hab.1 hin.2.1, lt_of_lt_of_le hin.2.2 hab.2⟩
      · exact hc i hi hout hp2 hin
    unfold testEdge
    rw [if_neg h]
    by_cases hj : j = p1 ∨ j = p2
    · rw [if_pos hj]
      exact hskip (hj.elim Or.inl fun h => Or.inr (Or.inl h))
    · rw [if_neg hj]
      cases hd : pointOnEdge l (pos j) start stop with
      | none => exact hskip (Or.inr (Or.inr (pointOnEdge_none.mp hd)))
      | some d =>
        simp only
        obtain ⟨rfl, hin⟩ := pointOnEdge_some.mp hd
        set d := Param l (pos j) with hdd
        rw [not_or] at hj
        obtain ⟨m1, a1, a2, a3, a4⟩ := ih start d p1 j (Ne.symm hj.1)
        obtain ⟨m2, b1, b2, b3, b4⟩ := ih d stop j p2 hj.2
        have hsd : l.rnd start ≤ l.rnd d := by
          have := hr.1 _ _ (le_of_lt hin.2.1)
          rwa [hr.2] at this
        have hds : l.rnd d ≤ l.rnd stop := by
          have := hr.1 _ _ (le_of_lt hin.2.2)
          rwa [hr.2] at this
        have hm1 : ∀ i ∈ m1, InsideEdge l start stop (pos i) := fun i hi =>
          ⟨(a2 i hi).2.1, (a2 i hi).2.2.1, lt_of_lt_of_le (a2 i hi).2.2.2 hds⟩
        have hm2 : ∀ i ∈ m2, InsideEdge l start stop (pos i) := fun i hi =>
          ⟨(b2 i hi).2.1, lt_of_le_of_lt hsd (b2 i hi).2.2.1, (b2 i hi).2.2.2⟩
        refine ⟨m1 ++ j :: m2, ?_, ?_, ?_, ?_⟩
        · rw [a1, b1]; simp
        · intro i hi
          rcases List.mem_append.mp hi with hi | hi
          · exact ⟨List.mem_cons_of_mem _ (a2 i hi).1, hm1 i hi⟩
          · rcases List.mem_cons.mp hi with rfl | hi
            · exact ⟨List.mem_cons_self, hin⟩
            · exact ⟨List.mem_cons_of_mem _ (b2 i hi).1, hm2 i hi⟩
        · rw [List.pairwise_append]
          refine ⟨a3, ?_, ?_⟩
          · rw [List.pairwise_cons]
            exact ⟨fun i hi => Or.inr (b2 i hi).2.2.1, b3⟩
          · intro x hx y hy
            rcases List.mem_cons.mp hy with rfl | hy
            · exact Or.inl (a2 x hx).2.2.2
            · have hxy : Param l (pos x) < Param l (pos y) := lt_trans (a2 x hx).2.2.2 (b2 y hy).2.2.1
              have := hr.1 _ _ (le_of_lt (a2 x hx).2.2.2)
              rw [hr.2] at this
              exact Or.inr (lt_of_le_of_lt this (b2 y hy).2.2.1)
        · have e : start :: (m1 ++ j :: m2).map (fun j => Param l (pos j)) ++ [stop] =
              (start :: m1.map (fun j => Param l (pos j))) ++ d :: (m2.map (fun j => Param l (pos j)) ++ [stop]) := by
            simp [hdd]
          rw [e]
          refine chain_join ?_ ?_
          · refine a4.imp ?_
            rintro a b ⟨hab, hc⟩
            refine ⟨⟨hab.1, le_trans hab.2 hds⟩, ?_⟩
            intro i hi hout hp2 hI
            rcases List.mem_cons.mp hi with rfl | hi
            · exact hout (by simp)
            · refine hc i hi ?_ ?_ hI
              · intro h; exact hout (by rcases List.mem_cons.mp h with h | h <;> simp [h])
              · rintro rfl; exact hout (by simp)
          · refine b4.imp ?_
            rintro a b ⟨hab, hc⟩
            refine ⟨⟨le_trans hsd hab.1, hab.2⟩, ?_⟩
            intro i hi hout hp2 hI
            rcases List.mem_cons.mp hi with rfl | hi
            · exact hout (by simp)
            · refine hc i hi ?_ hp2 hI
              intro h; exact hout (by rcases List.mem_cons.mp h with h | h <;> simp [h])

end Verif.Faces
