import Verif.Samples.FanLemmas

/-!
Lemmas on the normal and the edge planes of a well-formed face.
-/

namespace Verif.Samples

open Verif.Geom Verif.Phong

/-- The loop over the fan returns its largest triangle. -/
theorem largest_spec {P : Vec ℝ → Vec ℝ → Prop} {p0 : Vec ℝ} : ∀ (ps : List (Vec ℝ)) (best : Option (Vec ℝ × Vec ℝ × ℝ)),
    (∀ b, best = some b → b.2.2 = triangleArea L p0 b.1 b.2.1 ∧ P b.1 b.2.1) →
    (∀ (i : Nat) x y, ps[i]? = some x → ps[i + 1]? = some y → P x y) →
    ((∃ b, best = some b) ∨ ∃ (i : Nat) (x y : Vec ℝ), ps[i]? = some x ∧ ps[i + 1]? = some y) →
    ∃ r, largestTriangle L p0 ps best = some r ∧ r.2.2 = triangleArea L p0 r.1 r.2.1 ∧ P r.1 r.2.1 ∧
      (∀ b, best = some b → b.2.2 ≤ r.2.2) ∧
      ∀ (i : Nat) x y, ps[i]? = some x → ps[i + 1]? = some y → triangleArea L p0 x y ≤ r.2.2 := by
  intro ps
  induction ps with
  | nil =>
    intro best hb _ hs
    rcases hs with ⟨b, rfl⟩ | ⟨i, x, y, hx, _⟩
    · obtain ⟨h1, h2⟩ := hb b rfl
      refine ⟨b, rfl, h1, h2, ?_, ?_⟩
      · intro b' h
        cases h
        exact le_rfl
      · intro i x y hx
        simp at hx
    · simp at hx
  | cons p ps ih =>
    intro best hb hP hs
    cases ps with
    | nil =>
      rcases hs with ⟨b, rfl⟩ | ⟨i, x, y, hx, hy⟩
      · obtain ⟨h1, h2⟩ := hb b rfl
        refine ⟨b, rfl, h1, h2, ?_, ?_⟩
        · intro b' h
          cases h
          exact le_rfl
        · intro i x y hx hy
          simp at hy
      · simp at hy
    | cons q rs =>
      have hpq := hP 0 p q rfl rfl
      unfold largestTriangle
      simp only
      have hP' : ∀ (i : Nat) x y, (q :: rs)[i]? = some x → (q :: rs)[i + 1]? = some y → P x y :=
        fun i x y hx hy => hP (i + 1) x y (by simpa using hx) (by simpa using hy)
      have step : ∀ (t : Option (Vec ℝ × Vec ℝ × ℝ)) (tb : Vec ℝ × Vec ℝ × ℝ), t = some tb →
          tb.2.2 = triangleArea L p0 tb.1 tb.2.1 → P tb.1 tb.2.1 → triangleArea L p0 p q ≤ tb.2.2 →
          (∀ b, best = some b → b.2.2 ≤ tb.2.2) →
          ∃ r, largestTriangle L p0 (q :: rs) t = some r ∧ r.2.2 = triangleArea L p0 r.1 r.2.1 ∧ P r.1 r.2.1 ∧
            (∀ b, best = some b → b.2.2 ≤ r.2.2) ∧
            ∀ (i : Nat) x y, (p :: q :: rs)[i]? = some x → (p :: q :: rs)[i + 1]? = some y →
              triangleArea L p0 x y ≤ r.2.2 := by
        intro t tb ht e1 e2 e3 e4
        obtain ⟨r, r1, r2, r3, r4, r5⟩ := ih t (by
          intro b h
          rw [ht] at h
          cases h
          exact ⟨e1, e2⟩) hP' (Or.inl ⟨tb, ht⟩)
        refine ⟨r, r1, r2, r3, fun b h => (e4 b h).trans (r4 tb ht), ?_⟩
        intro i x y hx hy
        cases i with
        | zero =>
          simp only [List.getElem?_cons_zero, List.getElem?_cons_succ, Option.some.injEq, zero_add] at hx hy
          subst hx hy
          exact e3.trans (r4 tb ht)
        | succ i => exact r5 i x y (by simpa using hx) (by simpa using hy)
      cases best with
      | none =>
        exact step _ (p, q, triangleArea L p0 p q) rfl rfl hpq le_rfl (by intro b h; cases h)
      | some b =>
        simp only
        by_cases h : b.2.2 < triangleArea L p0 p q
        · simp only [gt_iff_lt, h, decide_true, if_true]
          exact step _ (p, q, triangleArea L p0 p q) rfl rfl hpq le_rfl (by intro b' h'; cases h'; exact h.le)
        · simp only [gt_iff_lt, h, decide_false]
          obtain ⟨h1, h2⟩ := hb b rfl
          exact step _ b (by simp) h1 h2 (not_lt.1 h) (by intro b' h'; cases h'; exact le_rfl)

theorem flat_area {a b c : Vec ℝ} (h : Flat a b c) : triangleArea L a b c = 0 := by
  obtain ⟨t, -, e⟩ := h
  unfold triangleArea
  have : cross (sub c a) (sub b a) = ⟨0, 0, 0⟩ := by
    rw [e]
    refine vec_ext ?_ ?_ ?_ <;> (simp only [cross, smul]; ring)
  rw [this]
  have h2 : L (⟨0, 0, 0⟩ : Vec ℝ) = 0 := by
    have := len_sq (⟨0, 0, 0⟩ : Vec ℝ)
    have h3 : dot (⟨0, 0, 0⟩ : Vec ℝ) ⟨0, 0, 0⟩ = 0 := by simp [dot]
    rw [h3] at this
    exact mul_self_eq_zero.1 this
  rw [h2, mul_zero]

/-- The computed normal of a well-formed face. -/
theorem faceNormal_eq {n : Vec ℝ} {ps : List (Vec ℝ)} (h : WellFormed n ps) : faceNormal L ps = n := by
  obtain ⟨a, b, c, ⟨h0, i, hb, hc⟩, hB⟩ := h.some
  cases ps with
  | nil => simp at h0
  | cons p0 qs =>
    simp only [List.getElem?_cons_zero, Option.some.injEq] at h0
    subst h0
    obtain ⟨r, r1, r2, r3, -, r5⟩ := largest_spec (P := fun x y => Flat p0 x y ∨ Big n p0 x y) (p0 := p0) qs none
      (by intro b h; cases h)
      (by
        intro j x y hx hy
        exact h.fan p0 x y ⟨rfl, j, by simpa using hx, by simpa using hy⟩)
      (Or.inr ⟨i, b, c, by simpa using hb, by simpa using hc⟩)
    have hbig := r5 i b c (by simpa using hb) (by simpa using hc)
    have hA := (big_normal h.unit hB).1
    have hr : areaEps ≤ r.2.2 := hA.trans hbig
    unfold faceNormal
    simp only [r1]
    rw [if_neg (not_lt.2 hr)]
    rcases r3 with hf | hb'
    · rw [flat_area hf] at r2
      have := areaEps_pos
      linarith
    · exact (big_normal h.unit hb').2

theorem unit_ne {n : Vec ℝ} (h : dot n n = 1) : n ≠ ⟨0, 0, 0⟩ := by
  intro e
  rw [e] at h
  simp [dot] at h

theorem length_of_some {n : Vec ℝ} {ps : List (Vec ℝ)} (h : WellFormed n ps) : 3 ≤ ps.length := by
  obtain ⟨a, b, c, ⟨-, i, -, hc⟩, -⟩ := h.some
  have := (List.getElem?_eq_some_iff.1 hc).1
  omega

/-- The edge planes of a well-formed face: one for each edge. -/
theorem edgePlanes_eq {n : Vec ℝ} {ps : List (Vec ℝ)} (h : WellFormed n ps) (pl : Plane ℝ) :
    pl ∈ edgePlanes L ps ↔ ∃ a b, IsEdge ps a b ∧ edgePlane L a b n = some pl := by
  have hl := length_of_some h
  unfold edgePlanes
  rw [if_neg (by omega)]
  simp only
  rw [faceNormal_eq h, if_neg (unit_ne h.unit)]
  simp only [List.mem_filterMap]
  constructor
  · rintro ⟨e, he, hp⟩
    exact ⟨e.1, e.2, mem_edges.1 he, hp⟩
  · rintro ⟨a, b, he, hp⟩
    exact ⟨(a, b), mem_edges.2 he, hp⟩

/-- Being inside by a distance, in terms of the edges. -/
theorem insideBy_iff {n : Vec ℝ} {ps : List (Vec ℝ)} (h : WellFormed n ps) (p : Vec ℝ) (d : ℝ) :
    insideBy (edgePlanes L ps) p d = true ↔ ∀ a b, IsEdge ps a b → d ≤ inward n a b p := by
  unfold insideBy
  simp only [List.all_eq_true, decide_eq_true_eq, ge_iff_le]
  constructor
  · intro hh a b he
    obtain ⟨pl, hpl⟩ := edgePlane_isSome (n := n) (h.edge a b he)
    have := hh pl ((edgePlanes_eq h pl).2 ⟨a, b, he, hpl⟩)
    rw [(edgePlane_above hpl p).2] at this
    exact this
  · intro hh pl hpl
    obtain ⟨a, b, he, e⟩ := (edgePlanes_eq h pl).1 hpl
    rw [(edgePlane_above e p).2]
    exact hh a b he

theorem edgePlanes_ne {n : Vec ℝ} {ps : List (Vec ℝ)} (h : WellFormed n ps) : edgePlanes L ps ≠ [] := by
  obtain ⟨a, b, c, ⟨h0, i, hb, hc⟩, -⟩ := h.some
  have hl := length_of_some h
  have : ∃ q, ps[1]? = some q := ⟨ps[1], List.getElem?_eq_getElem (by omega)⟩
  obtain ⟨q, hq⟩ := this
  have he : IsEdge ps a q := ⟨0, h0, by rw [Nat.mod_eq_of_lt (by omega)]; exact hq⟩
  obtain ⟨pl, hpl⟩ := edgePlane_isSome (n := n) (h.edge a q he)
  intro h'
  have := (edgePlanes_eq h pl).2 ⟨a, q, he, hpl⟩
  rw [h'] at this
  simp at this

end Verif.Samples
