import Verif.Vis.Graph

namespace Verif.Vis

variable {Leaf Portal : Type} {G : Graph Leaf Portal}

theorem isChain_append {a b : List Portal} :
    IsChain G (a ++ b) ↔ IsChain G a ∧ IsChain G b ∧
      (∀ x ∈ a.getLast?, ∀ y ∈ b.head?, G.owner y = G.dest x) := by
  induction a with
  | nil => simp [IsChain]
  | cons p a ih =>
    cases a with
    | nil =>
      cases b with
      | nil => simp [IsChain]
      | cons q b => simp [IsChain]; exact And.comm
    | cons r a =>
      simp only [List.cons_append, IsChain] at ih ⊢
      rw [ih]
      simp only [List.getLast?_cons_cons]
      constructor
      · rintro ⟨h1, h2, h3, h4⟩; exact ⟨⟨h1, h2⟩, h3, h4⟩
      · rintro ⟨⟨h1, h2⟩, h3, h4⟩; exact ⟨h1, h2, h3, h4⟩

theorem isChain_reverse {c : List Portal} (h : IsChain G c) : IsChain G (c.reverse.map G.rev) := by
  induction c with
  | nil => simp [IsChain]
  | cons p c ih =>
    rw [List.reverse_cons, List.map_append, isChain_append]
    refine ⟨ih ?_, by simp [IsChain], ?_⟩
    · cases c with
      | nil => simp [IsChain]
      | cons q c => exact h.2
    · intro x hx y hy
      simp only [List.map_cons, List.map_nil, List.head?_cons, Option.mem_some_iff] at hy
      subst hy
      cases c with
      | nil => simp at hx
      | cons q c =>
        have : x = G.rev q := by
          simpa [List.getLast?_append] using hx.symm
        subst this
        rw [G.dest_rev, G.owner_rev, h.1]

/-- Sight between leafs is symmetric. -/
theorem leafSees_symm (S : Sight G) {M L : Leaf} (h : LeafSees G S M L) : LeafSees G S L M := by
  obtain ⟨p, hp, m, hc, hs, hd⟩ := h
  have hc' := isChain_reverse hc
  have hs' := S.reversed _ hs
  -- the reversed walk starts with the reverse of the last portal
  obtain ⟨q, r, e⟩ : ∃ q r, ((p :: m).reverse.map G.rev) = q :: r := by
    cases h : ((p :: m).reverse.map G.rev) with
    | nil => simp at h
    | cons q r => exact ⟨q, r, rfl⟩
  have hq : q = G.rev ((p :: m).getLast (by simp)) := by
    have := congrArg List.head? e
    rw [List.head?_map, List.head?_reverse, List.getLast?_eq_some_getLast (by simp)] at this
    simpa using this.symm
  refine ⟨q, ?_, r, ?_, ?_, ?_⟩
  · rw [hq, G.owner_rev, hd]
  · rw [← e]; exact hc'
  · rw [← e]; exact hs'
  · have hl : (q :: r).getLast? = some (G.rev p) := by
      rw [← e, List.getLast?_map, List.getLast?_reverse]; rfl
    rw [List.getLast?_eq_some_getLast (by simp)] at hl
    have := Option.some.inj hl
    rw [this, G.dest_rev, hp]

end Verif.Vis
