import Verif.Samples.PlaceProps

/-!
The edge that a sample outside of its face crosses, and the test for solids (C181, C182).
-/

namespace Verif.Samples

open Verif.Geom Verif.Phong

/-- How far a point is past the ends of an edge, along it. -/
noncomputable def past (a b p : Vec ℝ) : ℝ :=
  max 0 (max (-(dot (sub p a) (sub b a) / L (sub b a))) (dot (sub p b) (sub b a) / L (sub b a)))

/-- The edges that a point is behind of, or less than `pointEps` in front of. -/
def Behind (n : Vec ℝ) (e : Vec ℝ × Vec ℝ) (p : Vec ℝ) : Prop :=
  pointEps ≤ L (sub e.2 e.1) ∧ inward n e.1 e.2 p < pointEps

theorem edgePlane_iff {n : Vec ℝ} {e : Vec ℝ × Vec ℝ} {p : Vec ℝ} :
    Behind n e p ↔ ∃ pl, edgePlane L e.1 e.2 n = some pl ∧ above pl p < pointEps := by
  constructor
  · rintro ⟨h1, h2⟩
    obtain ⟨pl, hpl⟩ := edgePlane_isSome (n := n) h1
    exact ⟨pl, hpl, by rw [(edgePlane_above hpl p).2]; exact h2⟩
  · rintro ⟨pl, hpl, h⟩
    obtain ⟨h1, h2⟩ := edgePlane_above hpl p
    rw [h2] at h
    exact ⟨h1, h⟩

/-- The search returns the first of the edges with the least `edgeDist`. -/
theorem bestEdge_spec {n p : Vec ℝ} : ∀ (es : List (Vec ℝ × Vec ℝ)) (i : Nat) (best : Option (Nat × ℝ)),
    (bestEdge L n p es i best = none ↔ best = none ∧ ∀ e ∈ es, ¬Behind n e p) ∧
    ∀ r, bestEdge L n p es i best = some r →
      (best = some r ∨ ∃ (j : Nat) (e : Vec ℝ × Vec ℝ), es[j]? = some e ∧ r.1 = i + j ∧ Behind n e p ∧
        r.2 = edgeDist L e.1 e.2 p) ∧
      (∀ b, best = some b → r.2 ≤ b.2) ∧ ∀ e ∈ es, Behind n e p → r.2 ≤ edgeDist L e.1 e.2 p := by
  intro es
  induction es with
  | nil =>
    intro i best
    refine ⟨by simp [bestEdge], ?_⟩
    intro r h
    unfold bestEdge at h
    exact ⟨Or.inl h, by intro b hb; rw [hb] at h; cases h; exact le_rfl, by simp⟩
  | cons e es ih =>
    intro i best
    by_cases hB : Behind n e p
    · obtain ⟨pl, hpl, hlt⟩ := edgePlane_iff.1 hB
      unfold bestEdge
      simp only [hpl]
      rw [if_pos hlt]
      have step : ∀ (t : Option (Nat × ℝ)) (tb : Nat × ℝ), t = some tb →
          (best = some tb ∨ (tb.1 = i ∧ tb.2 = edgeDist L e.1 e.2 p)) →
          (∀ b, best = some b → tb.2 ≤ b.2) → tb.2 ≤ edgeDist L e.1 e.2 p →
          (bestEdge L n p es (i + 1) t = none ↔ best = none ∧ ∀ e' ∈ e :: es, ¬Behind n e' p) ∧
          ∀ r, bestEdge L n p es (i + 1) t = some r →
            (best = some r ∨ ∃ (j : Nat) (e' : Vec ℝ × Vec ℝ), (e :: es)[j]? = some e' ∧ r.1 = i + j ∧ Behind n e' p ∧
              r.2 = edgeDist L e'.1 e'.2 p) ∧
            (∀ b, best = some b → r.2 ≤ b.2) ∧ ∀ e' ∈ e :: es, Behind n e' p → r.2 ≤ edgeDist L e'.1 e'.2 p := by
        intro t tb ht h1 h2 h3
        obtain ⟨i1, i2⟩ := ih (i + 1) t
        constructor
        · rw [i1, ht]
          constructor
          · rintro ⟨h, _⟩
            cases h
          · rintro ⟨_, h⟩
            exact absurd hB (h e (by simp))
        · intro r hr
          obtain ⟨r1, r2, r3⟩ := i2 r hr
          have hle := r2 tb ht
          refine ⟨?_, fun b hb => hle.trans (h2 b hb), ?_⟩
          · rcases r1 with r1 | ⟨j, e', hj, hi, hb, hd⟩
            · rw [ht] at r1
              cases r1
              rcases h1 with h1 | ⟨ha, hb⟩
              · exact Or.inl h1
              · exact Or.inr ⟨0, e, rfl, by omega, hB, hb⟩
            · exact Or.inr ⟨j + 1, e', by simpa using hj, by omega, hb, hd⟩
          · intro e' he' hb'
            rcases List.mem_cons.1 he' with rfl | he'
            · exact hle.trans h3
            · exact r3 e' he' hb'
      cases best with
      | none =>
        exact step _ (i, edgeDist L e.1 e.2 p) rfl (Or.inr ⟨rfl, rfl⟩) (by intro b h; cases h) le_rfl
      | some b =>
        simp only
        by_cases h : edgeDist L e.1 e.2 p < b.2
        · simp only [h, decide_true, if_true]
          exact step _ (i, edgeDist L e.1 e.2 p) rfl (Or.inr ⟨rfl, rfl⟩) (by intro b' h'; cases h'; exact h.le) le_rfl
        · simp only [h, decide_false]
          exact step _ b (by simp) (Or.inl rfl) (by intro b' h'; cases h'; exact le_rfl) (not_lt.1 h)
    · have hcall : bestEdge L n p (e :: es) i best = bestEdge L n p es (i + 1) best := by
        rw [bestEdge]
        split
        · rfl
        · next pl hpl =>
          rw [if_neg]
          intro h
          exact hB (edgePlane_iff.2 ⟨pl, hpl, h⟩)
      rw [hcall]
      obtain ⟨i1, i2⟩ := ih (i + 1) best
      constructor
      · rw [i1]
        constructor
        · rintro ⟨h1, h2⟩
          refine ⟨h1, ?_⟩
          intro e' he'
          rcases List.mem_cons.1 he' with rfl | he'
          · exact hB
          · exact h2 e' he'
        · rintro ⟨h1, h2⟩
          exact ⟨h1, fun e' he' => h2 e' (by simp [he'])⟩
      · intro r hr
        obtain ⟨r1, r2, r3⟩ := i2 r hr
        refine ⟨?_, r2, ?_⟩
        · rcases r1 with r1 | ⟨j, e', hj, hi, hb, hd⟩
          · exact Or.inl r1
          · exact Or.inr ⟨j + 1, e', by simpa using hj, by omega, hb, hd⟩
        · intro e' he' hb'
          rcases List.mem_cons.1 he' with rfl | he'
          · exact absurd hb' hB
          · exact r3 e' he' hb'

theorem fraction_eq {a b p : Vec ℝ} (h : 0 < L (sub b a)) :
    fraction a b p * L (sub b a) = dot (sub p a) (sub b a) / L (sub b a) ∧
    dot (sub p b) (sub b a) / L (sub b a) = (fraction a b p - 1) * L (sub b a) := by
  have hs := len_sq (sub b a)
  have hD : dot (sub b a) (sub b a) = L (sub b a) * L (sub b a) := hs.symm
  have e : dot (sub p b) (sub b a) = dot (sub p a) (sub b a) - dot (sub b a) (sub b a) := by
    unfold dot sub
    ring
  unfold fraction
  simp only
  rw [if_neg (by rw [hD]; exact (mul_pos h h).ne'), e, hD]
  generalize L (sub b a) = l at h
  constructor <;> field_simp

/-- Where the point is not past the end of an edge, the distance that is compared is the one past the ends. -/
theorem edgeDist_past {a b p : Vec ℝ} (h : 0 < L (sub b a)) (h1 : fraction a b p ≤ 1) :
    edgeDist L a b p = past a b p := by
  obtain ⟨f1, f2⟩ := fraction_eq (p := p) h
  unfold edgeDist past
  simp only
  rw [f2, ← f1]
  have h3 : (fraction a b p - 1) * L (sub b a) ≤ 0 := mul_nonpos_of_nonpos_of_nonneg (by linarith) h.le
  by_cases h0 : fraction a b p < 0
  · rw [if_pos h0, abs_of_neg h0]
    have : 0 < -(fraction a b p * L (sub b a)) := by
      have := mul_neg_of_neg_of_pos h0 h
      linarith
    have h4 : (fraction a b p - 1) * L (sub b a) ≤ -(fraction a b p * L (sub b a)) := h3.trans this.le
    rw [max_eq_left h4, max_eq_right this.le]
    ring
  · rw [if_neg h0, if_neg (not_lt.2 h1)]
    push Not at h0
    have : 0 ≤ fraction a b p * L (sub b a) := mul_nonneg h0 h.le
    rw [max_eq_left]
    exact max_le (by linarith) h3

/-- C181: if the point is not past the end of any edge it is behind of, it crosses the edge whose ends it is the least past:
the number is the one of such an edge. There is none only if the point is in front of all edges. -/
theorem crossed_edge_partial {n p : Vec ℝ} {ps : List (Vec ℝ)}
    (hend : ∀ a b, IsEdge ps a b → Behind n (a, b) p → fraction a b p ≤ 1) :
    (bestEdge L n p (edges ps) 0 none = none ↔ ∀ a b, IsEdge ps a b → ¬Behind n (a, b) p) ∧
    ∀ r, bestEdge L n p (edges ps) 0 none = some r →
      ∃ a b, ps[r.1]? = some a ∧ ps[(r.1 + 1) % ps.length]? = some b ∧ Behind n (a, b) p ∧
        ∀ a' b', IsEdge ps a' b' → Behind n (a', b') p → past a b p ≤ past a' b' p := by
  obtain ⟨h1, h2⟩ := bestEdge_spec (n := n) (p := p) (edges ps) 0 none
  constructor
  · rw [h1]
    constructor
    · rintro ⟨_, h⟩ a b he
      exact h (a, b) (mem_edges.2 he)
    · intro h
      exact ⟨rfl, fun e he => h e.1 e.2 (mem_edges.1 he)⟩
  · intro r hr
    obtain ⟨r1, -, r3⟩ := h2 r hr
    rcases r1 with r1 | ⟨j, e, hj, hi, hb, hd⟩
    · cases r1
    · obtain ⟨e1, e2⟩ := edges_index hj
      have hrj : r.1 = j := by omega
      rw [hrj]
      refine ⟨e.1, e.2, e1, e2, hb, ?_⟩
      intro a' b' he' hb'
      have hmin := r3 (a', b') (mem_edges.2 he') hb'
      have l1 : 0 < L (sub e.2 e.1) := lt_of_lt_of_le pointEps_pos hb.1
      have l2 : 0 < L (sub b' a') := lt_of_lt_of_le pointEps_pos hb'.1
      rw [hd, edgeDist_past l1 (hend _ _ ⟨j, e1, e2⟩ hb), edgeDist_past l2 (hend _ _ he' hb')] at hmin
      exact hmin

theorem L_eq {v : Vec ℝ} {e : ℝ} (he : 0 ≤ e) (h : dot v v = e * e) : L v = e := by
  rw [← len_sq v] at h
  exact (mul_self_inj (len_nonneg v) he).1 h

/-- A square. -/
def square : List (Vec ℝ) := [⟨0, 0, 0⟩, ⟨0, 10, 0⟩, ⟨10, 10, 0⟩, ⟨10, 0, 0⟩]

/-- C181: past the end of an edge the whole length of the edge is added: beyond a corner of a square, one unit past the end
of one edge and two units before the start of the next, the search takes the second. -/
theorem crossed_edge_not_least_past :
    ∃ (p : Vec ℝ) (r : Nat × ℝ), bestEdge L ⟨0, 0, 1⟩ p (edges square) 0 none = some r ∧ r.1 = 2 ∧
      Behind ⟨0, 0, 1⟩ (⟨0, 10, 0⟩, ⟨10, 10, 0⟩) p ∧
      past ⟨0, 10, 0⟩ ⟨10, 10, 0⟩ p = 1 ∧ past ⟨10, 10, 0⟩ ⟨10, 0, 0⟩ p = 2 := by
  have l0 : L (sub ⟨0, 10, 0⟩ ⟨0, 0, 0⟩) = 10 := L_eq (by norm_num) (by norm_num [dot, sub])
  have l1 : L (sub ⟨10, 10, 0⟩ ⟨0, 10, 0⟩) = 10 := L_eq (by norm_num) (by norm_num [dot, sub])
  have l2 : L (sub ⟨10, 0, 0⟩ ⟨10, 10, 0⟩) = 10 := L_eq (by norm_num) (by norm_num [dot, sub])
  have l3 : L (sub ⟨0, 0, 0⟩ ⟨10, 0, 0⟩) = 10 := L_eq (by norm_num) (by norm_num [dot, sub])
  have b1 : Behind ⟨0, 0, 1⟩ (⟨0, 10, 0⟩, ⟨10, 10, 0⟩) ⟨11, 12, 0⟩ := by
    refine ⟨by simp only; rw [l1]; norm_num [pointEps], ?_⟩
    simp only [inward]
    rw [l1]
    norm_num [pointEps, dot, cross, sub]
  have b2 : Behind ⟨0, 0, 1⟩ (⟨10, 10, 0⟩, ⟨10, 0, 0⟩) ⟨11, 12, 0⟩ := by
    refine ⟨by simp only; rw [l2]; norm_num [pointEps], ?_⟩
    simp only [inward]
    rw [l2]
    norm_num [pointEps, dot, cross, sub]
  have d1 : edgeDist L ⟨0, 10, 0⟩ ⟨10, 10, 0⟩ ⟨11, 12, 0⟩ = 11 := by
    have : fraction (⟨0, 10, 0⟩ : Vec ℝ) ⟨10, 10, 0⟩ ⟨11, 12, 0⟩ = 11 / 10 := by norm_num [fraction, dot, sub]
    unfold edgeDist
    simp only
    rw [this, l1]
    norm_num
  have d2 : edgeDist L ⟨10, 10, 0⟩ ⟨10, 0, 0⟩ ⟨11, 12, 0⟩ = 2 := by
    have : fraction (⟨10, 10, 0⟩ : Vec ℝ) ⟨10, 0, 0⟩ ⟨11, 12, 0⟩ = -(1 / 5) := by norm_num [fraction, dot, sub]
    unfold edgeDist
    simp only
    rw [this, l2]
    norm_num [abs_of_neg]
  have n0 : ¬Behind ⟨0, 0, 1⟩ (⟨0, 0, 0⟩, ⟨0, 10, 0⟩) ⟨11, 12, 0⟩ := by
    rintro ⟨-, h⟩
    simp only [inward] at h
    rw [l0] at h
    norm_num [pointEps, dot, cross, sub] at h
  have n3 : ¬Behind ⟨0, 0, 1⟩ (⟨10, 0, 0⟩, ⟨0, 0, 0⟩) ⟨11, 12, 0⟩ := by
    rintro ⟨-, h⟩
    simp only [inward] at h
    rw [l3] at h
    norm_num [pointEps, dot, cross, sub] at h
  have he : edges square = [(⟨0, 0, 0⟩, ⟨0, 10, 0⟩), (⟨0, 10, 0⟩, ⟨10, 10, 0⟩), (⟨10, 10, 0⟩, ⟨10, 0, 0⟩),
      (⟨10, 0, 0⟩, ⟨0, 0, 0⟩)] := rfl
  obtain ⟨h1, h2⟩ := bestEdge_spec (n := ⟨0, 0, 1⟩) (p := ⟨11, 12, 0⟩) (edges square) 0 none
  cases hr : bestEdge L ⟨0, 0, 1⟩ ⟨11, 12, 0⟩ (edges square) 0 none with
  | none => exact absurd b1 ((h1.1 hr).2 _ (by rw [he]; simp))
  | some r =>
    refine ⟨⟨11, 12, 0⟩, r, hr, ?_, b1, ?_, ?_⟩
    · obtain ⟨r1, -, r3⟩ := h2 r hr
      have hm := r3 _ (by rw [he]; simp) b2
      rw [d2] at hm
      rcases r1 with r1 | ⟨j, e, hj, hi, hb, hd⟩
      · cases r1
      · rw [he] at hj
        have hj4 : j < 4 := by
          have := (List.getElem?_eq_some_iff.1 hj).1
          simpa using this
        have : j = 0 ∨ j = 1 ∨ j = 2 ∨ j = 3 := by omega
        rcases this with rfl | rfl | rfl | rfl
        · simp at hj
          subst hj
          exact absurd hb n0
        · simp at hj
          subst hj
          rw [hd, d1] at hm
          norm_num at hm
        · omega
        · simp at hj
          subst hj
          exact absurd hb n3
    · unfold past
      rw [l1]
      norm_num [dot, sub]
    · unfold past
      rw [l2]
      norm_num [dot, sub]

/-- The hypotheses are met: a point beside the first edge of the triangle. -/
example : Behind ⟨0, 0, 1⟩ (⟨0, 0, 0⟩, ⟨0, 3, 0⟩) ⟨-1, 1, 0⟩ ∧ fraction (⟨0, 0, 0⟩ : Vec ℝ) ⟨0, 3, 0⟩ ⟨-1, 1, 0⟩ ≤ 1 := by
  have l : L (sub ⟨0, 3, 0⟩ ⟨0, 0, 0⟩) = 3 := L_eq (by norm_num) (by norm_num [dot, sub])
  refine ⟨⟨by simp only; rw [l]; norm_num [pointEps], ?_⟩, by norm_num [fraction, dot, sub]⟩
  simp only [inward]
  rw [l]
  norm_num [pointEps, dot, cross, sub]

/-! The test for solids -/

/-- Where a solid model is: its tree is given relative to its place. -/
def Fills (m : Solid ℝ) (p : Vec ℝ) : Prop := m.inside ⟨p.x - m.offset.x, p.y - m.offset.y, p.z - m.offset.z⟩ = true

/-- C182: a place is in a solid if it is in the model of the face; or in the world, for a model on the default channel; or
in an opaque model that casts shadows on the same channel. This is for a model that is not moved. -/
theorem in_any_solid_partial {world : Vec ℝ → Bool} {ms : List (Solid ℝ)} {self : Solid ℝ} {p : Vec ℝ}
    (h0 : self.offset = ⟨0, 0, 0⟩) :
    pointInAnySolid world ms self p = true ↔
      Fills self p ∨ (self.mask = 1 ∧ world p = true) ∨
      ∃ m ∈ ms, m.mask = self.mask ∧ m.opaqueModel = true ∧ Fills m p := by
  have hs : Fills self p ↔ self.inside p = true := by
    unfold Fills
    rw [h0]
    simp
  have hf : ∀ m : Solid ℝ, Fills m p ↔ m.inside (sub p m.offset) = true := fun m => Iff.rfl
  rw [hs]
  unfold pointInAnySolid
  by_cases h1 : self.inside p = true
  · simp [h1]
  · rw [if_neg h1]
    by_cases h2 : self.mask = 1 ∧ world p = true
    · simp [h2]
    · rw [if_neg h2]
      simp only [List.any_eq_true, Bool.and_eq_true, decide_eq_true_eq, h1, h2, false_or, hf]
      constructor
      · rintro ⟨m, hm, ⟨a, b⟩, c⟩
        exact Or.inr ⟨m, hm, a, c, b⟩
      · rintro (h | ⟨m, hm, a, c, b⟩)
        · cases h
        · exact ⟨m, hm, ⟨a, b⟩, c⟩

/-- C182: of a model with an origin the tree is asked about the wrong place: a place far from the model counts as in it, and
one inside of it does not. -/
theorem in_any_solid_moved_model :
    ∃ (self : Solid ℝ) (p q : Vec ℝ), pointInAnySolid (fun _ => false) [] self p = true ∧ ¬Fills self p ∧
      pointInAnySolid (fun _ => false) [] self q = false ∧ Fills self q := by
  classical
  refine ⟨⟨fun p => decide (|p.x| ≤ 1), ⟨100, 0, 0⟩, 1, true⟩, ⟨0, 0, 0⟩, ⟨100, 0, 0⟩, ?_, ?_, ?_, ?_⟩
  · simp [pointInAnySolid]
  · simp [Fills]
  · simp [pointInAnySolid]
  · simp [Fills]

/-- The hypothesis is met by the world: its offset is zero. -/
example : pointInAnySolid (fun _ => true) [] (⟨fun _ => false, ⟨0, 0, 0⟩, 1, true⟩ : Solid ℝ) ⟨0, 0, 0⟩ = true :=
  (in_any_solid_partial rfl).2 (Or.inr (Or.inl ⟨rfl, rfl⟩))

end Verif.Samples
