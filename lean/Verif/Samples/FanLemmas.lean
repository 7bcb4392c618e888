import Verif.Samples.InterpLemmas

/-!
Lemmas on the edges of a polygon and the triangles around its first corner.
-/

namespace Verif.Samples

open Verif.Geom Verif.Phong

theorem mem_edges {ps : List (Vec ℝ)} {e : Vec ℝ × Vec ℝ} : e ∈ edges ps ↔ IsEdge ps e.1 e.2 := by
  cases ps with
  | nil => simp [edges, IsEdge]
  | cons p qs =>
    unfold edges IsEdge
    simp only
    have key : ∀ i : Nat, i < (p :: qs).length → (qs ++ [p])[i]? = (p :: qs)[(i + 1) % (p :: qs).length]? := by
      intro i hi
      simp only [List.length_cons] at hi ⊢
      by_cases h : i < qs.length
      · rw [Nat.mod_eq_of_lt (by omega), List.getElem?_append_left h]
        simp
      · have : i = qs.length := by omega
        subst this
        simp
    constructor
    · intro h
      obtain ⟨i, hi, he⟩ := List.getElem_of_mem h
      rw [List.getElem_zip] at he
      have hi1 : i < (p :: qs).length := by simp at hi ⊢; omega
      have hi2 : i < (qs ++ [p]).length := by simp at hi ⊢; omega
      refine ⟨i, ?_, ?_⟩
      · rw [List.getElem?_eq_getElem hi1, ← he]
      · rw [← key i hi1, List.getElem?_eq_getElem hi2, ← he]
    · rintro ⟨i, h1, h2⟩
      obtain ⟨hi, h1⟩ := List.getElem?_eq_some_iff.1 h1
      rw [← key i hi] at h2
      obtain ⟨hi2, h2⟩ := List.getElem?_eq_some_iff.1 h2
      have hi3 : i < ((p :: qs).zip (qs ++ [p])).length := by
        rw [List.length_zip]
        exact lt_min hi hi2
      have : ((p :: qs).zip (qs ++ [p]))[i] = e := by
        rw [List.getElem_zip, h1, h2]
      rw [← this]
      exact List.getElem_mem hi3

/-- How far a point is to the inner side of a diagonal from the first corner. -/
theorem inward_flat {n a b c p : Vec ℝ} (h : Flat a b c) : inward n a c p = inward n a b p := by
  obtain ⟨t, ht, e⟩ := h
  unfold inward
  have hl : L (sub c a) = t * L (sub b a) := by
    have h1 : L (sub c a) * L (sub c a) = (t * L (sub b a)) * (t * L (sub b a)) := by
      have := len_sq (sub b a)
      rw [len_sq, e]
      have h2 : dot (smul t (sub b a)) (smul t (sub b a)) = t * t * dot (sub b a) (sub b a) := by
        unfold dot smul
        ring
      rw [h2, ← this]
      ring
    exact (mul_self_inj (len_nonneg _) (mul_nonneg ht.le (len_nonneg _))).1 h1
  rw [hl, e]
  have : dot (cross (smul t (sub b a)) n) (sub p a) = t * dot (cross (sub b a) n) (sub p a) := by
    unfold dot cross smul
    ring
  rw [this, mul_div_mul_left _ _ ht.ne']

theorem L_swap (a b : Vec ℝ) : L (sub a b) = L (sub b a) := by
  have h : L (sub a b) * L (sub a b) = L (sub b a) * L (sub b a) := by
    rw [len_sq, len_sq]
    unfold dot sub
    ring
  exact (mul_self_inj (len_nonneg _) (len_nonneg _)).1 h

theorem inward_swap (n a b p : Vec ℝ) : inward n b a p = -inward n a b p := by
  unfold inward
  rw [L_swap a b, ← neg_div]
  congr 1
  unfold dot cross sub
  ring

theorem L_smul_unit {n : Vec ℝ} (hn : dot n n = 1) {s : ℝ} (hs : 0 ≤ s) : L (smul s n) = s := by
  have h : L (smul s n) * L (smul s n) = s * s := by
    rw [len_sq]
    have : dot (smul s n) (smul s n) = s * s * dot n n := by
      unfold dot smul
      ring
    rw [this, hn, mul_one]
  exact (mul_self_inj (len_nonneg _) hs).1 h

theorem areaEps_pos : (0 : ℝ) < areaEps := by norm_num [areaEps]

theorem pointEps_pos : (0 : ℝ) < pointEps := by norm_num [pointEps]

/-- The normal that a triangle facing `n` gets. -/
theorem big_normal {n a b c : Vec ℝ} (hn : dot n n = 1) (h : Big n a b c) :
    areaEps ≤ 1 / 2 * L (areaVec a b c) ∧ smul (1 / L (areaVec a b c)) (areaVec a b c) = n := by
  obtain ⟨⟨s, hs, e⟩, -⟩ := h
  have hp := areaEps_pos
  have h0 : 0 < s := by linarith
  rw [e, L_smul_unit hn h0.le]
  refine ⟨by linarith, ?_⟩
  refine vec_ext ?_ ?_ ?_ <;> (simp only [smul]; field_simp)

theorem big_not_flat {n a b c : Vec ℝ} (hn : dot n n = 1) (h : Big n a b c) : ¬Flat a b c := by
  rintro ⟨t, -, e⟩
  have h1 := (big_normal hn h).1
  have : areaVec a b c = ⟨0, 0, 0⟩ := by
    unfold areaVec
    rw [e]
    refine vec_ext ?_ ?_ ?_ <;> (simp only [cross, smul]; ring)
  rw [this] at h1
  have h2 : L (⟨0, 0, 0⟩ : Vec ℝ) = 0 := by
    have := len_sq (⟨0, 0, 0⟩ : Vec ℝ)
    have h3 : dot (⟨0, 0, 0⟩ : Vec ℝ) ⟨0, 0, 0⟩ = 0 := by simp [dot]
    rw [h3] at this
    exact mul_self_eq_zero.1 this
  rw [h2] at h1
  have := areaEps_pos
  linarith

/-- A point that is near enough to the inner side of each edge of a triangle gets a normal from it. -/
theorem interpolateIn_some {n p : Vec ℝ} {a b c : Vec ℝ × Vec ℝ} (hn : dot n n = 1) (h : Big n a.1 b.1 c.1)
    (h1 : -pointEps ≤ inward n a.1 b.1 p) (h2 : -pointEps ≤ inward n b.1 c.1 p)
    (h3 : -pointEps ≤ inward n c.1 a.1 p) : ∃ m, interpolateIn L p a b c = some m := by
  obtain ⟨hA, hN⟩ := big_normal hn h
  obtain ⟨-, l1, l2, l3⟩ := h
  have hlen := tri_planes_of hA l1 l2 l3
  obtain ⟨-, p1, p2, p3, e, e1, e2, e3⟩ := tri_planes hlen
  rw [hN] at e1 e2 e3
  unfold interpolateIn
  simp only
  rw [if_neg (by simpa using hlen), e]
  have hin : pointInside [p1, p2, p3] p = true := by
    unfold pointInside insideBy
    rw [if_neg (by simp)]
    simp only [List.all_cons, List.all_nil, Bool.and_true, Bool.and_eq_true, decide_eq_true_eq, ge_iff_le]
    rw [(edgePlane_above e1 p).2, (edgePlane_above e2 p).2, (edgePlane_above e3 p).2]
    exact ⟨h1, h2, h3⟩
  rw [if_pos hin]
  have hd : L (areaVec a.1 b.1 c.1) ≠ 0 := by
    have := areaEps_pos
    intro h0
    rw [h0] at hA
    linarith
  cases hb : baryFrom p a.1 b.1 c.1 with
  | some w => exact ⟨_, rfl⟩
  | none =>
    exfalso
    unfold baryFrom at hb
    simp only at hb
    rw [denom_eq, if_neg (mul_ne_zero hd hd)] at hb
    cases hb

/-- The loop finds a triangle. -/
theorem loop_some {n p : Vec ℝ} {a : Vec ℝ × Vec ℝ} (hn : dot n n = 1) :
    ∀ (rest : List (Vec ℝ × Vec ℝ)) (b : Vec ℝ × Vec ℝ),
      (∀ (i : Nat) x y, (b :: rest)[i]? = some x → (b :: rest)[i + 1]? = some y →
        (Flat a.1 x.1 y.1 ∨ Big n a.1 x.1 y.1) ∧ -pointEps ≤ inward n x.1 y.1 p) →
      -pointEps ≤ inward n a.1 b.1 p →
      (pointEps < inward n a.1 b.1 p ∨ ∃ (i : Nat) (x y : Vec ℝ × Vec ℝ), (b :: rest)[i]? = some x ∧
        (b :: rest)[i + 1]? = some y ∧ Big n a.1 x.1 y.1) →
      inward n a.1 ((b :: rest).getLast (by simp)).1 p ≤ pointEps →
      ∃ m, interpolateLoop L p a (b :: rest) = some m := by
  intro rest
  induction rest with
  | nil =>
    intro b _ _ hs hl
    rcases hs with hs | ⟨i, x, y, _, hy, _⟩
    · simp only [List.getLast_singleton] at hl
      linarith
    · simp at hy
  | cons c rs ih =>
    intro b hc hb hs hl
    unfold interpolateLoop
    cases hi : interpolateIn L p a b c with
    | some m => exact ⟨m, rfl⟩
    | none =>
      simp only
      have hbc := hc 0 b c rfl rfl
      refine ih c ?_ ?_ ?_ ?_
      · intro i x y hx hy
        exact hc (i + 1) x y (by simpa using hx) (by simpa using hy)
      · rcases hbc.1 with hf | hbig
        · rw [inward_flat hf]
          exact hb
        · by_contra hlt
          push Not at hlt
          have := pointEps_pos
          obtain ⟨m, hm⟩ := interpolateIn_some hn hbig hb hbc.2 (by rw [inward_swap]; linarith)
          rw [hm] at hi
          cases hi
      · rcases hbc.1 with hf | hbig
        · rcases hs with hs | ⟨i, x, y, hx, hy, hB⟩
          · left
            rw [inward_flat hf]
            exact hs
          · right
            cases i with
            | zero =>
              exfalso
              simp only [List.getElem?_cons_zero, List.getElem?_cons_succ, Option.some.injEq, zero_add] at hx hy
              subst hx hy
              exact big_not_flat hn hB hf
            | succ i => exact ⟨i, x, y, by simpa using hx, by simpa using hy, hB⟩
        · left
          by_contra hle
          push Not at hle
          obtain ⟨m, hm⟩ := interpolateIn_some hn hbig hb hbc.2 (by rw [inward_swap]; linarith)
          rw [hm] at hi
          cases hi
      · simpa using hl

/-- What the loop returns comes from a triangle of the fan. -/
theorem loop_from {p m : Vec ℝ} {a : Vec ℝ × Vec ℝ} : ∀ (bs : List (Vec ℝ × Vec ℝ)),
    interpolateLoop L p a bs = some m →
    ∃ (i : Nat) (b c : Vec ℝ × Vec ℝ), bs[i]? = some b ∧ bs[i + 1]? = some c ∧ interpolateIn L p a b c = some m := by
  intro bs
  induction bs with
  | nil => intro h; cases h
  | cons b bs ih =>
    cases bs with
    | nil => intro h; cases h
    | cons c rs =>
      intro h
      unfold interpolateLoop at h
      cases hi : interpolateIn L p a b c with
      | some k =>
        rw [hi] at h
        simp only [Option.some.injEq] at h
        subst h
        exact ⟨0, b, c, rfl, rfl, hi⟩
      | none =>
        rw [hi] at h
        obtain ⟨i, x, y, hx, hy, hh⟩ := ih h
        exact ⟨i + 1, x, y, by simpa using hx, by simpa using hy, hh⟩

/-- What a triangle returns. -/
theorem interpolateIn_from {p m : Vec ℝ} {a b c : Vec ℝ × Vec ℝ} (h : interpolateIn L p a b c = some m) :
    ∃ w₀ w₁ w₂ : ℝ, w₀ + w₁ + w₂ = 1 ∧ m = Mix w₀ w₁ w₂ a.2 b.2 c.2 ∧
      dot (sub p (Mix w₀ w₁ w₂ a.1 b.1 c.1)) (sub b.1 a.1) = 0 ∧
      dot (sub p (Mix w₀ w₁ w₂ a.1 b.1 c.1)) (sub c.1 a.1) = 0 ∧
      0 < L (areaVec a.1 b.1 c.1) ∧
      -(pointEps * L (sub c.1 b.1)) ≤ w₀ * L (areaVec a.1 b.1 c.1) ∧
      -(pointEps * L (sub a.1 c.1)) ≤ w₁ * L (areaVec a.1 b.1 c.1) ∧
      -(pointEps * L (sub b.1 a.1)) ≤ w₂ * L (areaVec a.1 b.1 c.1) := by
  unfold interpolateIn at h
  simp only at h
  by_cases hlen : (edgePlanes L [a.1, b.1, c.1]).length = 3
  · rw [if_neg (by simpa using hlen)] at h
    obtain ⟨hA, p1, p2, p3, e, e1, e2, e3⟩ := tri_planes hlen
    have hD : 0 < L (areaVec a.1 b.1 c.1) := by
      have := areaEps_pos
      linarith
    by_cases hin : pointInside (edgePlanes L [a.1, b.1, c.1]) p = true
    · rw [if_pos hin] at h
      cases hb : baryFrom p a.1 b.1 c.1 with
      | none => rw [hb] at h; cases h
      | some w =>
        rw [hb] at h
        simp only [Option.some.injEq] at h
        obtain ⟨hsum, t0, t1, t2⟩ := bary_turn hb
        obtain ⟨f1, f2⟩ := bary_foot hb
        have hm : ∀ x y z : Vec ℝ, baryTo w x y z = Mix w.1 w.2.1 w.2.2 x y z := by
          intro x y z
          refine vec_ext ?_ ?_ ?_ <;> simp [baryTo, Mix, add, smul]
        rw [hm] at f1 f2 h
        rw [e] at hin
        unfold pointInside insideBy at hin
        rw [if_neg (by simp)] at hin
        simp only [List.all_cons, List.all_nil, Bool.and_true, Bool.and_eq_true, decide_eq_true_eq, ge_iff_le] at hin
        obtain ⟨i1, i2, i3⟩ := hin
        obtain ⟨l1, q1⟩ := edgePlane_above e1 p
        obtain ⟨l2, q2⟩ := edgePlane_above e2 p
        obtain ⟨l3, q3⟩ := edgePlane_above e3 p
        rw [q1] at i1
        rw [q2] at i2
        rw [q3] at i3
        have key : ∀ {u v : Vec ℝ} {t : ℝ}, pointEps ≤ L u →
            -pointEps ≤ dot (cross u (smul (1 / L (areaVec a.1 b.1 c.1)) (areaVec a.1 b.1 c.1))) v / L u →
            t * (L (areaVec a.1 b.1 c.1) * L (areaVec a.1 b.1 c.1)) = dot (cross u (areaVec a.1 b.1 c.1)) v →
            -(pointEps * L u) ≤ t * L (areaVec a.1 b.1 c.1) := by
          intro u v t hu hi ht
          have hu0 : 0 < L u := lt_of_lt_of_le pointEps_pos hu
          rw [le_div_iff₀ hu0] at hi
          have e : dot (cross u (smul (1 / L (areaVec a.1 b.1 c.1)) (areaVec a.1 b.1 c.1))) v
              = (1 / L (areaVec a.1 b.1 c.1)) * dot (cross u (areaVec a.1 b.1 c.1)) v := by
            unfold dot cross smul
            ring
          rw [e, ← ht] at hi
          have e2 : 1 / L (areaVec a.1 b.1 c.1) * (t * (L (areaVec a.1 b.1 c.1) * L (areaVec a.1 b.1 c.1)))
              = t * L (areaVec a.1 b.1 c.1) := by
            field_simp
          rw [e2] at hi
          linarith
        exact ⟨w.1, w.2.1, w.2.2, hsum, h.symm, f1, f2, hD, key l2 i2 t0, key l3 i3 t1, key l1 i1 t2⟩
    · rw [if_neg hin] at h
      cases h
  · rw [if_pos hlen] at h
    cases h

end Verif.Samples
