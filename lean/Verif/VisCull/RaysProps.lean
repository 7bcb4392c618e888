import Verif.VisCull.RaysLemmas

/-!
C237: light without visibility data: the estimate of what lights can see.
-/

namespace Verif.VisCull

open Verif.Geom Verif.Geom.Spec Verif.VisCull.Spec

/-- **C237**: for every point the estimate is made (no assertion fails), and it is the smallest box around the point and the ends
of the 1024 rays, made larger by a quarter of its size on each side. -/
theorem estimate_box (hit : Pt ℝ 3 → Pt ℝ 3 → ℝ) (p : Pt ℝ 3) :
    ∃ t b, estimate hit p = .ok b ∧ Tight (Seen hit p) t ∧ Widened t b := estimate_spec hit p

/-- **C237**: no light is skipped at a face if the box of the face holds the light, or the end of one of the rays. -/
theorem seen_not_skipped {hit : Pt ℝ 3 → Pt ℝ 3 → ℝ} {p q : Pt ℝ 3} {b face : Box ℝ 3} (hb : estimate hit p = .ok b)
    (hq : Seen hit p q) (hf : Inside face q) (a : Approx) (masks : Bool) : raysSkip a masks b face = false := by
  obtain ⟨t, b', hb', ht, hw⟩ := estimate_spec hit p
  rw [hb] at hb'
  cases hb'
  have := not_disjoint (eps := 0.001) (by norm_num) (widened_inside ht.1 hw (ht.2.1 q hq)) hf
  simp [raysSkip, this]

/-- The boxes of the points are in the box of the surface. -/
theorem addPoints_holds (hit : Pt ℝ 3 → Pt ℝ 3 → ℝ) : ∀ (points : List (Pt ℝ 3)) {b c : Box ℝ 3}, Proper b →
    addPoints hit points b = .ok c → (∀ q, Inside b q → Inside c q) ∧
      ∀ x ∈ points, ∀ d, estimate hit x = .ok d → ∀ q, Inside d q → Inside c q := by
  intro points
  induction points with
  | nil => intro b c _ h; simp only [addPoints, Outcome.ok.injEq] at h; subst h; simp
  | cons x xs ih =>
    intro b c hp h
    obtain ⟨t, e, he, ht, hw⟩ := estimate_spec hit x
    simp only [addPoints, he, Outcome.ok_bind] at h
    have hpe : Proper e := fun i => by have := ht.1 i; have := hw i; linarith
    have hu : Proper (b.unionInPlace e) := fun i =>
      ((min_le_left _ _).trans (min_le_left _ _)).trans ((hp i).trans ((le_max_left _ _).trans (le_max_left _ _)))
    obtain ⟨h1, h2⟩ := ih hu h
    have hbu : ∀ q, Inside b q → Inside (b.unionInPlace e) q := fun q hq i =>
      ⟨((min_le_left _ _).trans (min_le_left _ _)).trans (hq i).1, (hq i).2.trans ((le_max_left _ _).trans (le_max_left _ _))⟩
    have heu : ∀ q, Inside e q → Inside (b.unionInPlace e) q := fun q hq i =>
      ⟨((min_le_left _ _).trans (min_le_right _ _)).trans (hq i).1, (hq i).2.trans (le_max_right _ _)⟩
    refine ⟨fun q hq => h1 q (hbu q hq), fun y hy d hd q hq => ?_⟩
    rcases List.mem_cons.mp hy with rfl | hy
    · rw [he] at hd
      cases hd
      exact h1 q (heu q hq)
    · exact h2 y hy d hd q hq

/-- **C237**: an emissive surface is not skipped at a face whose box holds a place that the middle of the surface or one of its
points is known to see. -/
theorem surface_not_skipped {hit : Pt ℝ 3 → Pt ℝ 3 → ℝ} {pos : Pt ℝ 3} {points : List (Pt ℝ 3)} {b face : Box ℝ 3}
    (hb : surfaceBox hit pos points = .ok b) {x q : Pt ℝ 3} (hx : x = pos ∨ x ∈ points) (hq : Seen hit x q) (hf : Inside face q)
    (a : Approx) : raysSkipSurface a b face = false := by
  obtain ⟨t, e, he, ht, hw⟩ := estimate_spec hit pos
  simp only [surfaceBox, he, Outcome.ok_bind] at hb
  have hpe : Proper e := fun i => by have := ht.1 i; have := hw i; linarith
  obtain ⟨h1, h2⟩ := addPoints_holds hit points hpe hb
  have hin : Inside b q := by
    rcases hx with rfl | hx
    · exact h1 q (widened_inside ht.1 hw (ht.2.1 q hq))
    · obtain ⟨t', e', he', ht', hw'⟩ := estimate_spec hit x
      exact h2 x hx e' he' q (widened_inside ht'.1 hw' (ht'.2.1 q hq))
  simp [raysSkipSurface, not_disjoint (eps := 0.001) (by norm_num) hin hf]

/-- **C237**: lights with their own channels are never skipped, and nothing is skipped with other settings; without visibility
data the rays are the default. -/
theorem skipped_only (a : Approx) (masks : Bool) (light face : Box ℝ 3) :
    (raysSkip a masks light face = true → a = .rays ∧ masks = true) ∧ (raysSkipSurface a light face = true → a = .rays) ∧
      chooseApprox .auto false = .rays ∧ chooseApprox .auto true = .vis ∧ (a ≠ .auto → ∀ v, chooseApprox a v = a) := by
  refine ⟨fun h => ?_, fun h => ?_, rfl, rfl, fun h v => by simp [chooseApprox, h]⟩
  · simp only [raysSkip, Bool.and_eq_true, decide_eq_true_eq] at h
    exact ⟨h.1.1, h.2⟩
  · simp only [raysSkipSurface, Bool.and_eq_true, decide_eq_true_eq] at h
    exact h.1

/-- **C237**: one ray goes straight up and one straight down, so what is right above and below a light is never cut. -/
theorem up_down : Tried ![0, 0, 1] ∧ Tried ![0, 0, -1] := by
  refine ⟨⟨0, 31, by norm_num, by norm_num, by simp; norm_num, by simp, by simp, by simp⟩,
    ⟨0, 0, by norm_num, by norm_num, by simp, by simp, by simp, by simp⟩⟩

/-- No ray is level. Where all of them end within a height of `h` above and below a light, the estimate ends at a distance of
46.5 times that. -/
theorem flat_space {hit : Pt ℝ 3 → Pt ℝ 3 → ℝ} {p : Pt ℝ 3} {b : Box ℝ 3} {h : ℝ} (hb : estimate hit p = .ok b)
    (h0 : ∀ d, Tried d → 0 ≤ hit p d) (hz : ∀ d, Tried d → hit p d * |d 2| ≤ h) (i : Fin 3) :
    p i - 46.5 * h ≤ b.mins i ∧ b.maxs i ≤ p i + 46.5 * h := by
  obtain ⟨t, b', hb', ht, hw⟩ := estimate_spec hit p
  rw [hb] at hb'
  cases hb'
  have hh : 0 ≤ h := by
    have := hz _ up_down.1
    have := h0 _ up_down.1
    simp at *
    linarith
  have hc : ∀ q, Seen hit p q → Inside (⟨fun i => p i - 31 * h, fun i => p i + 31 * h⟩ : Box ℝ 3) q := by
    rintro q (rfl | ⟨d, hd, hq⟩) j
    · constructor <;> simp only <;> linarith
    · have h1 := h0 d hd
      have h2 := hz d hd
      have h3 := tried_slope hd
      have hle : hit p d ≤ 31 * h := by nlinarith
      obtain ⟨_, _, _, _, _, hu, _⟩ := hd
      have h4 := abs_le.mp (abs_le_of_unit hu j)
      rw [hq j]
      constructor <;> simp only <;> nlinarith
  have hm := ht.2.2 _ hc t.mins (fun j => ⟨le_refl _, ht.1 j⟩) i
  have hM := ht.2.2 _ hc t.maxs (fun j => ⟨ht.1 j, le_refl _⟩) i
  have := hw i
  simp only at hm hM
  constructor <;> norm_num <;> linarith

/-- So with the default settings and without visibility data, a light in the middle between a floor and a ceiling does not light
faces that are further away than that, although there is nothing in between. -/
theorem seen_but_skipped {h : ℝ} (hh : 0 < h) {p : Pt ℝ 3} (hp : p 2 = 0) {b face : Box ℝ 3} (hb : estimate (slabHit h) p = .ok b)
    (hf : ∀ q, Inside face q → |q 2| < h) (hx : p 0 + 46.5 * h + 0.001 < face.mins 0) :
    raysSkip (chooseApprox .auto false) true b face = true ∧ ∀ q, Inside face q → ClearView h p q := by
  constructor
  · have h0 : ∀ d, Tried d → 0 ≤ slabHit h p d := fun d _ => by unfold slabHit; positivity
    have hz : ∀ d, Tried d → slabHit h p d * |d 2| ≤ h := fun d hd => by
      have := tried_slope hd
      unfold slabHit
      rw [div_mul_cancel₀]
      linarith
    have := (flat_space hb h0 hz 0).2
    simp only [raysSkip, chooseApprox, if_true, Bool.false_eq_true, if_false, decide_true, Bool.true_and, Bool.and_true]
    unfold Box.disjoint
    rw [Box.anyAxis_iff]
    refine ⟨0, ?_⟩
    simp only [Bool.or_eq_true, decide_eq_true_eq]
    left
    linarith
  · intro q hq t t0 t1
    have := abs_lt.mp (hf q hq)
    rw [hp, abs_lt]
    constructor <;> nlinarith

-- A corridor that is 64 units high: a wall at a distance of 2000 gets no light, one at the end of a ray does.
example : ∃ b face : Box ℝ 3, estimate (slabHit 32) ![0, 0, 0] = .ok b ∧ (∀ q, Inside face q → |q 2| < 32) ∧
    (![0, 0, 0] : Pt ℝ 3) 0 + 46.5 * 32 + 0.001 < face.mins 0 ∧ ∃ q, Inside face q := by
  obtain ⟨_, b, hb, -⟩ := estimate_spec (slabHit 32) ![0, 0, 0]
  refine ⟨b, ⟨![2000, -16, -16], ![2000, 16, 16]⟩, hb, fun q hq => ?_, by simp; norm_num, ![2000, 0, 0], fun i => ?_⟩
  · have := hq 2
    simp at this
    rw [abs_lt]
    constructor <;> linarith
  · fin_cases i <;> simp
example : Seen (slabHit 32) ![0, 0, 0] ![0, 0, 32] :=
  Or.inr ⟨_, up_down.1, fun i => by fin_cases i <;> simp [slabHit]⟩

end Verif.VisCull
