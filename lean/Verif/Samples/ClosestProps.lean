import Verif.Samples.InterpProps

/-!
The point of a polygon's border that is nearest to a point (C180).
-/

namespace Verif.Samples

open Verif.Geom Verif.Phong

/-- On the line segment from one point to another. -/
def OnSegment (v w q : Vec ℝ) : Prop := ∃ t : ℝ, 0 ≤ t ∧ t ≤ 1 ∧ q = add v (smul t (sub w v))

theorem L_le {u v : Vec ℝ} (h : dot u u ≤ dot v v) : L u ≤ L v := by
  rw [← len_sq u, ← len_sq v] at h
  exact (mul_self_le_mul_self_iff (len_nonneg u) (len_nonneg v)).2 h

theorem L_eq_zero {v : Vec ℝ} (h : L v = 0) : v = ⟨0, 0, 0⟩ := by
  by_contra hne
  exact (L_pos_of_ne hne).ne' h

theorem dist_sq (v w p : Vec ℝ) (t : ℝ) :
    dot (sub (add v (smul t (sub w v))) p) (sub (add v (smul t (sub w v))) p)
      = t * t * dot (sub w v) (sub w v) - 2 * t * dot (sub p v) (sub w v) + dot (sub p v) (sub p v) := by
  unfold dot sub add smul
  ring

/-- The point of the line that `closestOnLine` returns. -/
theorem closestOnLine_eq {v w p : Vec ℝ} (h : dot (sub w v) (sub w v) ≠ 0) :
    closestOnLine L v w p = add v (smul (fraction v w p) (sub w v)) := by
  have hl : L (sub w v) ≠ 0 := by
    intro h0
    have := len_sq (sub w v)
    rw [show realOps.len (sub w v) = 0 from h0, mul_zero] at this
    exact h this.symm
  have hne : smul (1 / L (sub w v)) (sub w v) ≠ ⟨0, 0, 0⟩ := by
    intro e
    apply h
    have hs := len_sq (sub w v)
    have : dot (smul (1 / L (sub w v)) (sub w v)) (sub w v) = 0 := by rw [e]; simp [dot]
    rw [dot_smul] at this
    rcases mul_eq_zero.1 this with h1 | h1
    · exact absurd h1 (one_div_ne_zero hl)
    · exact h1
  unfold closestOnLine fraction
  simp only
  rw [if_neg hl, if_neg hne, if_neg h]
  congr 1
  have e : dot (sub p v) (smul (1 / L (sub w v)) (sub w v)) = 1 / L (sub w v) * dot (sub p v) (sub w v) := by
    unfold dot smul
    ring
  rw [e, ← len_sq (sub w v)]
  change _ = smul (dot (sub p v) (sub w v) / (L (sub w v) * L (sub w v))) (sub w v)
  generalize L (sub w v) = l at hl
  refine vec_ext ?_ ?_ ?_ <;> (simp only [smul]; field_simp)

/-- C180: the nearest point of a segment is on it, and no other point of it is nearer. -/
theorem closest_on_segment (v w p : Vec ℝ) :
    OnSegment v w (closestOnSegment L v w p) ∧
    ∀ q, OnSegment v w q → L (sub (closestOnSegment L v w p) p) ≤ L (sub q p) := by
  have hw : w = add v (smul 1 (sub w v)) := by
    refine vec_ext ?_ ?_ ?_ <;> simp [add, smul, sub]
  have hv : v = add v (smul 0 (sub w v)) := by
    refine vec_ext ?_ ?_ ?_ <;> simp [add, smul]
  have key : ∃ t : ℝ, closestOnSegment L v w p = add v (smul t (sub w v)) ∧ 0 ≤ t ∧ t ≤ 1 ∧
      ∀ s : ℝ, 0 ≤ s → s ≤ 1 → t * t * dot (sub w v) (sub w v) - 2 * t * dot (sub p v) (sub w v)
        ≤ s * s * dot (sub w v) (sub w v) - 2 * s * dot (sub p v) (sub w v) := by
    have hD0 := dot_self_nonneg (sub w v)
    unfold closestOnSegment
    simp only
    by_cases hD : dot (sub w v) (sub w v) = 0
    · have hz : sub w v = ⟨0, 0, 0⟩ := by
        apply L_eq_zero
        have := len_sq (sub w v)
        rw [hD] at this
        exact mul_self_eq_zero.1 this
      have hf : fraction v w p = 0 := by
        unfold fraction
        simp only
        rw [if_pos hD]
      rw [hf, if_neg (by norm_num), if_pos le_rfl]
      refine ⟨0, hv, le_rfl, by norm_num, ?_⟩
      intro s _ _
      have hE : dot (sub p v) (sub w v) = 0 := by rw [hz]; simp [dot]
      rw [hD, hE]
      linarith
    · have hDp : 0 < dot (sub w v) (sub w v) := lt_of_le_of_ne hD0 (Ne.symm hD)
      have hf : fraction v w p = dot (sub p v) (sub w v) / dot (sub w v) (sub w v) := by
        unfold fraction
        simp only
        rw [if_neg hD]
      have hline := closestOnLine_eq (p := p) hD
      have hE : dot (sub p v) (sub w v) = fraction v w p * dot (sub w v) (sub w v) := by
        rw [hf, div_mul_cancel₀ _ hD]
      rw [hline]
      generalize fraction v w p = f at hE
      rw [hE]
      generalize dot (sub w v) (sub w v) = D at hDp
      by_cases h1 : f ≥ 1
      · rw [if_pos h1]
        refine ⟨1, hw, by norm_num, le_rfl, ?_⟩
        intro s h0 hs
        nlinarith [mul_nonneg (mul_nonneg (sub_nonneg.2 hs) (by linarith : (0 : ℝ) ≤ 2 * f - 1 - s)) hDp.le]
      · rw [if_neg h1]
        push Not at h1
        by_cases h2 : f ≤ 0
        · rw [if_pos h2]
          refine ⟨0, hv, le_rfl, by norm_num, ?_⟩
          intro s h0 hs
          nlinarith [mul_nonneg (mul_nonneg h0 (by linarith : (0 : ℝ) ≤ s - 2 * f)) hDp.le]
        · rw [if_neg h2]
          push Not at h2
          refine ⟨f, rfl, h2.le, h1.le, ?_⟩
          intro s h0 hs
          nlinarith [mul_nonneg (mul_self_nonneg (s - f)) hDp.le]
  obtain ⟨t, e, t0, t1, hmin⟩ := key
  refine ⟨⟨t, t0, t1, e⟩, ?_⟩
  rintro q ⟨s, s0, s1, rfl⟩
  apply L_le
  rw [e, dist_sq, dist_sq]
  have := hmin s s0 s1
  linarith

/-- The loop keeps the nearest of the points. -/
theorem closestLoop_spec {p : Vec ℝ} : ∀ (es : List (Vec ℝ × Vec ℝ)) (i : Nat) (best : Option (Nat × ℝ × Vec ℝ)),
    ((∃ b, best = some b) ∨ es ≠ []) →
    ∃ r, closestLoop L p es i best = some r ∧
      (best = some r ∨ ∃ (j : Nat) (e : Vec ℝ × Vec ℝ), es[j]? = some e ∧ r.1 = i + j ∧
        r.2.2 = closestOnSegment L e.1 e.2 p ∧ r.2.1 = L (sub r.2.2 p)) ∧
      (∀ b, best = some b → r.2.1 ≤ b.2.1) ∧
      ∀ e ∈ es, r.2.1 ≤ L (sub (closestOnSegment L e.1 e.2 p) p) := by
  intro es
  induction es with
  | nil =>
    intro i best h
    rcases h with ⟨b, rfl⟩ | h
    · exact ⟨b, rfl, Or.inl rfl, by intro b' h; cases h; exact le_rfl, by simp⟩
    · exact absurd rfl h
  | cons e es ih =>
    intro i best _
    unfold closestLoop
    simp only
    have step : ∀ (t : Option (Nat × ℝ × Vec ℝ)) (tb : Nat × ℝ × Vec ℝ), t = some tb →
        (best = some tb ∨ (tb.1 = i ∧ tb.2.2 = closestOnSegment L e.1 e.2 p ∧ tb.2.1 = L (sub tb.2.2 p))) →
        (∀ b, best = some b → tb.2.1 ≤ b.2.1) → tb.2.1 ≤ L (sub (closestOnSegment L e.1 e.2 p) p) →
        ∃ r, closestLoop L p es (i + 1) t = some r ∧
          (best = some r ∨ ∃ (j : Nat) (e' : Vec ℝ × Vec ℝ), (e :: es)[j]? = some e' ∧ r.1 = i + j ∧
            r.2.2 = closestOnSegment L e'.1 e'.2 p ∧ r.2.1 = L (sub r.2.2 p)) ∧
          (∀ b, best = some b → r.2.1 ≤ b.2.1) ∧
          ∀ e' ∈ e :: es, r.2.1 ≤ L (sub (closestOnSegment L e'.1 e'.2 p) p) := by
      intro t tb ht h1 h2 h3
      obtain ⟨r, r1, r2, r3, r4⟩ := ih (i + 1) t (Or.inl ⟨tb, ht⟩)
      have hle := r3 tb ht
      refine ⟨r, r1, ?_, fun b h => hle.trans (h2 b h), ?_⟩
      · rcases r2 with r2 | ⟨j, e', hj, hi, ha, hb⟩
        · rw [ht] at r2
          cases r2
          rcases h1 with h1 | ⟨ha, hb, hc⟩
          · exact Or.inl h1
          · exact Or.inr ⟨0, e, rfl, by omega, hb, hc⟩
        · exact Or.inr ⟨j + 1, e', by simpa using hj, by omega, ha, hb⟩
      · intro e' he'
        rcases List.mem_cons.1 he' with rfl | he'
        · exact hle.trans h3
        · exact r4 e' he'
    cases best with
    | none =>
      exact step _ (i, L (sub (closestOnSegment L e.1 e.2 p) p), closestOnSegment L e.1 e.2 p) rfl
        (Or.inr ⟨rfl, rfl, rfl⟩) (by intro b h; cases h) le_rfl
    | some b =>
      simp only
      by_cases h : L (sub (closestOnSegment L e.1 e.2 p) p) < b.2.1
      · simp only [h, decide_true, if_true]
        exact step _ (i, L (sub (closestOnSegment L e.1 e.2 p) p), closestOnSegment L e.1 e.2 p) rfl
          (Or.inr ⟨rfl, rfl, rfl⟩) (by intro b' h'; cases h'; exact h.le) le_rfl
      · simp only [h, decide_false]
        exact step _ b (by simp) (Or.inl rfl) (by intro b' h'; cases h'; exact le_rfl) (not_lt.1 h)

theorem edges_index {ps : List (Vec ℝ)} {j : Nat} {e : Vec ℝ × Vec ℝ} (h : (edges ps)[j]? = some e) :
    ps[j]? = some e.1 ∧ ps[(j + 1) % ps.length]? = some e.2 := by
  cases ps with
  | nil => simp [edges] at h
  | cons p qs =>
    unfold edges at h
    simp only at h
    rw [List.getElem?_zip_eq_some] at h
    obtain ⟨h1, h2⟩ := h
    refine ⟨h1, ?_⟩
    have hj := (List.getElem?_eq_some_iff.1 h1).1
    simp only [List.length_cons] at hj ⊢
    by_cases hlt : j < qs.length
    · rw [List.getElem?_append_left hlt] at h2
      rw [Nat.mod_eq_of_lt (by omega)]
      simpa using h2
    · have : j = qs.length := by omega
      subst this
      simp at h2 ⊢
      exact h2

/-- C180: the result is the number of an edge of the polygon and a point on this edge, and no point on any edge is nearer. -/
theorem closest_on_border {ps : List (Vec ℝ)} (hne : ps ≠ []) (p : Vec ℝ) :
    ∃ (j : Nat) (a b c : Vec ℝ), closestOnPoly L ps p = some (j, c) ∧ ps[j]? = some a ∧
      ps[(j + 1) % ps.length]? = some b ∧ OnSegment a b c ∧
      ∀ a' b' q, IsEdge ps a' b' → OnSegment a' b' q → L (sub c p) ≤ L (sub q p) := by
  have hes : edges ps ≠ [] := by
    cases ps with
    | nil => exact absurd rfl hne
    | cons x xs => cases xs <;> simp [edges]
  obtain ⟨r, r1, r2, -, r4⟩ := closestLoop_spec (p := p) (edges ps) 0 none (Or.inr hes)
  rcases r2 with r2 | ⟨j, e, hj, hi, hc, hd⟩
  · cases r2
  · obtain ⟨e1, e2⟩ := edges_index hj
    refine ⟨j, e.1, e.2, r.2.2, ?_, e1, e2, ?_, ?_⟩
    · unfold closestOnPoly
      rw [r1]
      simp only [Option.map_some, Option.some.injEq, Prod.mk.injEq, and_true]
      omega
    · rw [hc]
      exact (closest_on_segment _ _ _).1
    · intro a' b' q he hq
      rw [← hd]
      exact (r4 (a', b') (mem_edges.2 he)).trans ((closest_on_segment _ _ _).2 q hq)

/-- The hypothesis is met: below the first edge of a triangle. -/
example : OnSegment ⟨0, 0, 0⟩ ⟨0, 3, 0⟩ ⟨0, 1, 0⟩ := ⟨1 / 3, by norm_num, by norm_num, by
  refine vec_ext ?_ ?_ ?_ <;> norm_num [add, smul, sub]⟩

end Verif.Samples
