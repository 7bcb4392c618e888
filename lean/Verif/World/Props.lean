import Verif.World.Race
import Verif.BrushBsp.LeafSpec
import Verif.Hulls.Spec
import Mathlib.Tactic.NormNum

/-!
C143: The size that qbsp finds for the world has every brush, and the brushes of the hulls, whatever the threads do.
-/

namespace Verif.World

open Geom BrushBsp BrushBsp.Spec World.Spec

variable {K : Type} [Field K] [LinearOrder K] [IsStrictOrderedRing K]

omit [IsStrictOrderedRing K] in
theorem all_ok {eps scale : K} {bs : List (List (Plane K))} (h : ∀ b ∈ bs, 2 ≤ b.length) :
    ∃ es, allExtents eps scale bs = .ok es ∧
      (∀ b ∈ bs, ∃ e ∈ es, brushExtents eps scale b = .ok e) ∧ ∀ e ∈ es, ∃ b ∈ bs, brushExtents eps scale b = .ok e := by
  induction bs with
  | nil => exact ⟨[], rfl, by simp, by simp⟩
  | cons b l ih =>
    obtain ⟨es, h1, h2, h3⟩ := ih fun b' hb' => h b' (List.mem_cons_of_mem _ hb')
    have hb : ¬ b.length < 2 := by have := h b List.mem_cons_self; omega
    obtain ⟨e, he⟩ : ∃ e, brushExtents eps scale b = .ok e := by
      unfold brushExtents
      rw [if_neg hb]
      exact ⟨_, rfl⟩
    refine ⟨e :: es, ?_, ?_, ?_⟩
    · unfold allExtents
      rw [he, h1]
      rfl
    · intro b' hb'
      rcases List.mem_cons.1 hb' with rfl | hb'
      · exact ⟨e, by simp, he⟩
      · obtain ⟨e', h4, h5⟩ := h2 b' hb'
        exact ⟨e', by simp [h4], h5⟩
    · intro e' he'
      rcases List.mem_cons.1 he' with rfl | he'
      · exact ⟨b, by simp, he⟩
      · obtain ⟨b', h4, h5⟩ := h3 e' he'
        exact ⟨b', by simp [h4], h5⟩

omit [IsStrictOrderedRing K] in
theorem hull_le (hulls : List (Bounds K)) : 0 ≤ hullExtents hulls ∧ ∀ b ∈ hulls, |b.maxs.x - b.mins.x| ≤ hullExtents hulls ∧
    |b.maxs.y - b.mins.y| ≤ hullExtents hulls ∧ |b.maxs.z - b.mins.z| ≤ hullExtents hulls := by
  have key : ∀ (l : List (Bounds K)) (h0 : K),
      h0 ≤ l.foldl (fun h b => max (max (max h |b.maxs.x - b.mins.x|) |b.maxs.y - b.mins.y|) |b.maxs.z - b.mins.z|) h0 ∧
      ∀ b ∈ l, |b.maxs.x - b.mins.x| ≤ l.foldl (fun h b => max (max (max h |b.maxs.x - b.mins.x|) |b.maxs.y - b.mins.y|) |b.maxs.z - b.mins.z|) h0 ∧
        |b.maxs.y - b.mins.y| ≤ l.foldl (fun h b => max (max (max h |b.maxs.x - b.mins.x|) |b.maxs.y - b.mins.y|) |b.maxs.z - b.mins.z|) h0 ∧
        |b.maxs.z - b.mins.z| ≤ l.foldl (fun h b => max (max (max h |b.maxs.x - b.mins.x|) |b.maxs.y - b.mins.y|) |b.maxs.z - b.mins.z|) h0 := by
    intro l
    induction l with
    | nil => intro h0; exact ⟨le_refl _, by simp⟩
    | cons b l ih =>
      intro h0
      rw [List.foldl_cons]
      obtain ⟨h1, h2⟩ := ih (max (max (max h0 |b.maxs.x - b.mins.x|) |b.maxs.y - b.mins.y|) |b.maxs.z - b.mins.z|)
      simp only [max_le_iff] at h1
      refine ⟨h1.1.1.1, ?_⟩
      intro b' hb'
      rcases List.mem_cons.1 hb' with rfl | hb'
      · exact ⟨h1.1.1.2, h1.1.2, h1.2⟩
      · exact h2 b' hb'
  exact key hulls 0

/-- C143. Every brush has at least two faces. Then the extents of the brushes are found, and when the threads have ended, in
whatever order they ran, the option `worldextent` is a number `w` so large that for every brush that ends in all
directions, every point of it, moved by the option `scale`, and every place `at_` at which a box of a hull that has its own
origin inside meets the point, has coordinates of at most half of `w`, and is at most `w` away from the origin: the base
polygon of a plane has the points of the plane that are that near (C96). -/
theorem world_extent_covers {eps scale : K} (heps : 0 ≤ eps) (hscale : 0 < scale) {ceil : K → K} (hceil : ∀ x, x ≤ ceil x)
    (hulls : List (Bounds K)) {bs : List (List (Plane K))} (hbs : ∀ b ∈ bs, 2 ≤ b.length) :
    ∃ es, allExtents eps scale bs = .ok es ∧ ∀ s, Run es (init es.length) s → Ended s →
      ∀ b ∈ bs, Bounded b → ∀ q, In b q → ∃ w : K, worldExtent ceil hulls s.shared = (w : WithBot K) ∧
        Within (w / 2 - 12 - hullExtents hulls) (scaled scale q) ∧
        ∀ h ∈ hulls, InBox h ⟨0, 0, 0⟩ → ∀ at_, Hulls.Spec.InPlayer h at_ (scaled scale q) →
          Within (w / 2) at_ ∧ dot at_ at_ ≤ w * w := by
  obtain ⟨es, e1, e2, _⟩ := all_ok (eps := eps) (scale := scale) hbs
  refine ⟨es, e1, ?_⟩
  intro s hr hend b hb hbd q hq
  have hmax := inv_end (inv_run (inv_init es) hr) hend
  obtain ⟨e, he, hbe⟩ := e2 b hb
  unfold brushExtents at hbe
  rw [if_neg (by have := hbs b hb; omega)] at hbe
  have hle := hmax.1 e he
  obtain ⟨hx, hy, hz⟩ := brush_le heps hbd hq
  set e0 := (triples b.length).foldl (visit eps b) ⊥ with he0
  obtain ⟨k, hk⟩ : ∃ k : K, e0 = (k : WithBot K) := by
    cases h : e0 with
    | bot => rw [h] at hx; exact absurd hx (by simp)
    | coe k => exact ⟨k, rfl⟩
  rw [hk, WithBot.coe_le_coe] at hx hy hz
  have hek : e = ((k * scale : K) : WithBot K) := by
    rw [hk] at hbe
    simp only [Outcome.ok.injEq] at hbe
    rw [← hbe]
    split
    · rfl
    · rename_i h1
      rw [not_not.1 h1]
      simp
  obtain ⟨m, hm⟩ : ∃ m : K, s.shared = (m : WithBot K) := by
    cases h : s.shared with
    | bot => rw [h, hek] at hle; exact absurd hle (by simp)
    | coe m => exact ⟨m, rfl⟩
  rw [hm, hek, WithBot.coe_le_coe] at hle
  have hc := hceil ((m + hullExtents hulls) * 2)
  refine ⟨ceil ((m + hullExtents hulls) * 2) + 24, by rw [hm]; rfl, ?_⟩
  set w := ceil ((m + hullExtents hulls) * 2) + 24 with hw
  have hmw : m + hullExtents hulls + 12 ≤ w / 2 := by linarith
  have sc : ∀ x : K, |x| ≤ k → |x * scale| ≤ m := by
    intro x h
    rw [abs_mul, abs_of_pos hscale]
    have := mul_le_mul_of_nonneg_right h (le_of_lt hscale)
    linarith
  have hqx := sc _ hx
  have hqy := sc _ hy
  have hqz := sc _ hz
  refine ⟨⟨?_, ?_, ?_⟩, ?_⟩
  · show |q.x * scale| ≤ _; linarith
  · show |q.y * scale| ≤ _; linarith
  · show |q.z * scale| ≤ _; linarith
  intro h hh h0 at_ hat
  obtain ⟨hh0, hall⟩ := hull_le hulls
  obtain ⟨bx, by_, bz⟩ := hall h hh
  obtain ⟨⟨x1, x2⟩, ⟨y1, y2⟩, z1, z2⟩ := h0
  obtain ⟨⟨x3, x4⟩, ⟨y3, y4⟩, z3, z4⟩ := hat
  simp only [Hulls.Spec.minus, scaled] at x1 x2 x3 x4 y1 y2 y3 y4 z1 z2 z3 z4
  rw [abs_le] at bx by_ bz hqx hqy hqz
  have w1 : |at_.x| ≤ w / 2 := by rw [abs_le]; constructor <;> linarith
  have w2 : |at_.y| ≤ w / 2 := by rw [abs_le]; constructor <;> linarith
  have w3 : |at_.z| ≤ w / 2 := by rw [abs_le]; constructor <;> linarith
  refine ⟨⟨w1, w2, w3⟩, ?_⟩
  have sq : ∀ x : K, |x| ≤ w / 2 → x * x ≤ w / 2 * (w / 2) := by
    intro x hx
    rw [← abs_mul_abs_self x]
    exact mul_le_mul hx hx (abs_nonneg _) (le_trans (abs_nonneg _) hx)
  have s1 := sq _ w1
  have s2 := sq _ w2
  have s3 := sq _ w3
  have hp := mul_self_nonneg w
  simp only [dot]
  linarith

/-- The threads give the greatest extent, and it is one of a brush: some point within `eps` of all its planes has it as a
coordinate. -/
theorem world_extent_attained {eps scale : K} (hscale : 0 < scale) {bs : List (List (Plane K))} (hbs : ∀ b ∈ bs, 2 ≤ b.length) :
    ∃ es, allExtents eps scale bs = .ok es ∧ ∀ s, Run es (init es.length) s → Ended s → IsMax es s.shared ∧
      ∀ m : K, s.shared = (m : WithBot K) → ∃ b ∈ bs, ∃ v, (∀ f ∈ b, f.distTo v ≤ eps) ∧
        (m = |(scaled scale v).x| ∨ m = |(scaled scale v).y| ∨ m = |(scaled scale v).z|) := by
  obtain ⟨es, e1, _, e3⟩ := all_ok (eps := eps) (scale := scale) hbs
  refine ⟨es, e1, ?_⟩
  intro s hr hend
  have hmax := inv_end (inv_run (inv_init es) hr) hend
  refine ⟨hmax, ?_⟩
  intro m hm
  rcases hmax.2 with h | h
  · rw [h] at hm; cases hm
  obtain ⟨b, hb, hbe⟩ := e3 _ h
  unfold brushExtents at hbe
  rw [if_neg (by have := hbs b hb; omega), hm] at hbe
  simp only [Outcome.ok.injEq] at hbe
  have : ∃ k : K, (triples b.length).foldl (visit eps b) ⊥ = (k : WithBot K) ∧ m = k * scale := by
    cases h0 : (triples b.length).foldl (visit eps b) ⊥ with
    | bot => rw [h0] at hbe; split at hbe <;> cases hbe
    | coe k =>
      rw [h0] at hbe
      refine ⟨k, rfl, ?_⟩
      split at hbe
      · exact (WithBot.coe_injective hbe).symm
      · rename_i h1
        rw [not_not.1 h1, mul_one]
        exact (WithBot.coe_injective hbe).symm
  obtain ⟨k, hk, e⟩ := this
  obtain ⟨v, hv, hc⟩ := brush_attained hk
  refine ⟨b, hb, v, hv, ?_⟩
  have sc : ∀ x : K, k = |x| → m = |x * scale| := by
    intro x h
    rw [abs_mul, abs_of_pos hscale, e, h]
  rcases hc with h | h | h
  · exact Or.inl (sc _ h)
  · exact Or.inr (Or.inl (sc _ h))
  · exact Or.inr (Or.inr (sc _ h))

omit [IsStrictOrderedRing K] [Field K] in
/-- The loops end: without spurious failures of the exchange there is no run without end, from any state, and while a body
has not ended, a step is possible. -/
theorem threads_end (es : List (WithBot K)) : (¬ ∃ f : Nat → St K, ∀ n, Step es (f n) (f (n + 1))) ∧
    ∀ s, Run es (init es.length) s → ¬ Ended s → ∃ t, Step es s t := by
  constructor
  · rintro ⟨f, hf⟩
    exact ((wellFounded_iff_isEmpty_descending_chain (r := fun t s : St K => Step es s t)).1 (step_wf es)).false ⟨f, hf⟩
  · intro s hr hn
    have hi := inv_run (inv_init es) hr
    unfold Ended at hn
    push Not at hn
    obtain ⟨p, hp, hd⟩ := hn
    obtain ⟨i, hl, e⟩ := List.mem_iff_getElem.1 hp
    exact step_possible hi (by rw [List.getElem?_eq_getElem hl, e]) hd

/-- A map with a brush that has one face has an overflow in it. -/
theorem one_face_overflows : ∃ bs : List (List (Plane ℚ)), (∀ b ∈ bs, b ≠ []) ∧ allExtents (1 / 1000000) 1 bs = .ub :=
  ⟨[[⟨⟨1, 0, 0⟩, 0⟩]], by simp, rfl⟩

/-- The size of a map without brushes is negative infinity. -/
theorem no_brush_no_extent (ceil : ℚ → ℚ) (hulls : List (Bounds ℚ)) :
    ∃ es, allExtents (1 / 1000000) (1 : ℚ) [] = .ok es ∧ ∀ s, Run es (init es.length) s → worldExtent ceil hulls s.shared = ⊥ := by
  refine ⟨[], rfl, ?_⟩
  intro s hr
  have h := inv_run (inv_init ([] : List (WithBot ℚ))) hr
  rcases h.from_ with h | h
  · rw [h]; rfl
  · simp at h

/-- A box, with its extents. -/
def boxBrush : List (Plane ℚ) := [⟨⟨1, 0, 0⟩, 64⟩, ⟨⟨-1, 0, 0⟩, 0⟩, ⟨⟨0, 1, 0⟩, 32⟩, ⟨⟨0, -1, 0⟩, 128⟩, ⟨⟨0, 0, 1⟩, 16⟩, ⟨⟨0, 0, -1⟩, 16⟩]

/-- The hypotheses hold for it. -/
example : 2 ≤ boxBrush.length ∧ Bounded boxBrush ∧ In boxBrush ⟨10, -100, 3⟩ ∧
    brushExtents (1 / 1000000) 1 boxBrush = .ok ((128 : ℚ) : WithBot ℚ) := by
  refine ⟨by decide, ⟨64 * 64 + 128 * 128 + 16 * 16, ?_⟩, ?_, by decide +kernel⟩
  · intro q hq
    have h1 := hq ⟨⟨1, 0, 0⟩, 64⟩ (by simp [boxBrush])
    have h2 := hq ⟨⟨-1, 0, 0⟩, 0⟩ (by simp [boxBrush])
    have h3 := hq ⟨⟨0, 1, 0⟩, 32⟩ (by simp [boxBrush])
    have h4 := hq ⟨⟨0, -1, 0⟩, 128⟩ (by simp [boxBrush])
    have h5 := hq ⟨⟨0, 0, 1⟩, 16⟩ (by simp [boxBrush])
    have h6 := hq ⟨⟨0, 0, -1⟩, 16⟩ (by simp [boxBrush])
    simp only [Plane.distTo, dot] at h1 h2 h3 h4 h5 h6 ⊢
    nlinarith
  · unfold In
    decide +kernel

/-- And a run of two threads in which an exchange fails ends with the greater number. -/
example : ∃ s : St ℚ, Run [((1 : ℚ) : WithBot ℚ), ((2 : ℚ) : WithBot ℚ)] (init 2) s ∧ Ended s ∧ s.shared = ((2 : ℚ) : WithBot ℚ) := by
  have h : ∀ {es : List (WithBot ℚ)} {s t : St ℚ}, Run es (init 2) s → Step es s t → Run es (init 2) t :=
    fun h1 h2 => .step h1 (Or.inl h2)
  refine ⟨_, h (h (h (h (h (h (h (.refl _) (.load _ 0 (1 : ℚ) rfl rfl)) (.load _ 1 (2 : ℚ) rfl rfl)) (.read _ 0 (1 : ℚ) rfl))
    (.read _ 1 (2 : ℚ) rfl)) (.swap _ 0 ⊥ (1 : ℚ) rfl (by decide +kernel) rfl)) (.fail _ 1 ⊥ (2 : ℚ) rfl (by decide +kernel) (by decide +kernel)))
    (.swap _ 1 (1 : ℚ) (2 : ℚ) rfl (by decide +kernel) rfl), ?_, rfl⟩
  intro p hp
  simpa [init] using hp

end Verif.World
