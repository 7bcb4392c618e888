import Verif.BrushBsp.Cut
import Verif.BrushBsp.Example

/-! C98: `CheckSplitBrush` tells whether `SplitBrush` makes two brushes. -/

namespace Verif.BrushBsp

open Geom Geom.Spec Spec

set_option linter.unusedSectionVars false

variable {K C : Type} [Field K] [LinearOrder K] [IsStrictOrderedRing K]

theorem stack_of_bogus {env : Env K C} {sides : List (Side K)} (h : bogus env sides = false) : stackBogus env sides = false := by
  unfold bogus boundsOk at h
  unfold stackBogus stackBoundsOk
  simp only [Bool.or_eq_false_iff, Bool.not_eq_false', Bool.and_eq_true] at h ⊢
  exact ⟨⟨h.1.1, h.1.2.1.1⟩, h.2⟩

/-- C98: if `SplitBrush` makes two brushes, `CheckSplitBrush` says so. -/
theorem check_of_split {env : Env K C} {n : Nat} {b f g : Brush K C} (h : splitBrush env n b = (some f, some g)) :
    checkSplit env n b = true := by
  unfold splitBrush at h
  unfold checkSplit
  simp only at h ⊢
  by_cases h1 : maxFront (env.planes n) (points b.sides) < 1 / 10
  · rw [if_pos h1] at h; cases h
  rw [if_neg h1] at h ⊢
  by_cases h2 : maxBack (env.planes n) (points b.sides) > -(1 / 10)
  · rw [if_pos h2] at h; cases h
  rw [if_neg h2] at h ⊢
  split at h
  · split at h <;> cases h
  · rename_i m hm
    by_cases h3 : tiny m = true
    · rw [if_pos h3] at h
      split at h <;> cases h
    rw [if_neg h3] at h ⊢
    cases hf : bogus env (frontSides (env.planes n) b.sides) with
    | true =>
      rw [hf] at h
      simp only [Bool.true_and, if_true] at h
      split at h <;> cases h
    | false =>
      cases hg : bogus env (backSides (env.planes n) b.sides) with
      | true =>
        rw [hf, hg] at h
        simp only [Bool.false_and, Bool.false_eq_true, if_false, if_true] at h
        cases h
      | false =>
        rw [hf, hg] at h
        simp only [Bool.false_and, Bool.false_eq_true, if_false, Prod.mk.injEq] at h
        rw [stack_of_bogus hf, stack_of_bogus hg]
        simp only [Bool.or_false, Bool.false_eq_true, if_false]
        obtain ⟨e1, e2⟩ := h
        unfold keepHalf at e1 e2
        split at e1
        · cases e1
        · split at e2
          · cases e2
          · rename_i v1 v2
            simp only at v1 v2
            simp [v1, v2]

theorem fold_gt (c : K) : ∀ (l : List (Vec K)) (b : Bounds K),
    (c < (l.foldl expand b).mins.y ↔ c < b.mins.y ∧ ∀ p ∈ l, c < p.y) ∧
    (c < (l.foldl expand b).mins.z ↔ c < b.mins.z ∧ ∀ p ∈ l, c < p.z) ∧
    ((l.foldl expand b).maxs.y < c ↔ b.maxs.y < c ∧ ∀ p ∈ l, p.y < c) ∧
    ((l.foldl expand b).maxs.z < c ↔ b.maxs.z < c ∧ ∀ p ∈ l, p.z < c) := by
  intro l
  induction l with
  | nil => intro b; simp
  | cons a l ih =>
    intro b
    simp only [List.foldl_cons]
    obtain ⟨h1, h2, h3, h4⟩ := ih (expand b a)
    simp only [expand, lt_min_iff, max_lt_iff] at h1 h2 h3 h4
    refine ⟨?_, ?_, ?_, ?_⟩
    · rw [show expand b a = ⟨⟨min b.mins.x a.x, min b.mins.y a.y, min b.mins.z a.z⟩, ⟨max b.maxs.x a.x, max b.maxs.y a.y, max b.maxs.z a.z⟩⟩ from rfl, h1]
      simp [and_assoc]
    · rw [show expand b a = ⟨⟨min b.mins.x a.x, min b.mins.y a.y, min b.mins.z a.z⟩, ⟨max b.maxs.x a.x, max b.maxs.y a.y, max b.maxs.z a.z⟩⟩ from rfl, h2]
      simp [and_assoc]
    · rw [show expand b a = ⟨⟨min b.mins.x a.x, min b.mins.y a.y, min b.mins.z a.z⟩, ⟨max b.maxs.x a.x, max b.maxs.y a.y, max b.maxs.z a.z⟩⟩ from rfl, h3]
      simp [and_assoc]
    · rw [show expand b a = ⟨⟨min b.mins.x a.x, min b.mins.y a.y, min b.mins.z a.z⟩, ⟨max b.maxs.x a.x, max b.maxs.y a.y, max b.maxs.z a.z⟩⟩ from rfl, h4]
      simp [and_assoc]

/-- The points of a part are within the bounds of the polygon. -/
theorem part_within {pl : Plane K} (hu : UnitNormal pl) {w f : List (Vec K)} (h : Part pl 0 w f) {e : K}
    (hw : ∀ v ∈ w, |v.y| < e ∧ |v.z| < e) : ∀ v ∈ f, |v.y| < e ∧ |v.z| < e := by
  intro v hv
  obtain ⟨_, h1 | ⟨o, ho, hs⟩⟩ := part_vertices (le_refl 0) hu h v hv
  · exact hw v h1
  · obtain ⟨t, t0, t1, rfl⟩ := split_onSeg hs
    obtain ⟨m1, m2⟩ := mem_edges ho
    have a := hw _ m1
    have b := hw _ m2
    simp only [abs_lt] at a b ⊢
    have conv : ∀ {p q c : K}, p < c → q < c → p + t * (q - p) < c := by
      intro p q c hp hq
      have h : p + t * (q - p) = (1 - t) * p + t * q := by ring
      rw [h]
      rcases eq_or_lt_of_le t0 with rfl | t0
      · simpa using hp
      · nlinarith [mul_pos t0 (sub_pos.2 hq), mul_nonneg (sub_nonneg.2 t1) (sub_pos.2 hp).le]
    have conv' : ∀ {p q c : K}, -c < p → -c < q → -c < p + t * (q - p) := by
      intro p q c hp hq
      have := conv (p := -p) (q := -q) (c := c) (by linarith) (by linarith)
      linarith
    exact ⟨⟨conv' a.1.1 b.1.1, conv a.1.2 b.1.2⟩, ⟨conv' a.2.1 b.2.1, conv a.2.2 b.2.2⟩⟩

theorem bogus_of_stack {env : Env K C} (hh : env.worldextent ≤ env.huge) (hw : 0 < env.worldextent) {sides : List (Side K)}
    (hp : ∀ v ∈ points sides, |v.y| < env.worldextent ∧ |v.z| < env.worldextent)
    (h : stackBogus env sides = false) : bogus env sides = false := by
  unfold stackBogus at h
  unfold bogus
  simp only [Bool.or_eq_false_iff, Bool.not_eq_false'] at h ⊢
  refine ⟨⟨h.1.1, ?_⟩, h.2⟩
  have hx := h.1.2
  cases hpts : points sides with
  | nil =>
    exfalso
    unfold stackBoundsOk boundsOf at hx
    rw [hpts] at hx
    simp only [List.foldl_nil, Bool.not_eq_true', Bool.or_eq_false_iff] at hx
    exact of_decide_eq_false hx.1.2 hh
  | cons q l =>
    obtain ⟨qy, qz⟩ := hp q (by rw [hpts]; simp)
    simp only [abs_lt] at hp qy qz
    have gt := fold_gt (K := K)
    have e : boundsOf env.huge sides = (points sides).foldl expand ⟨⟨env.huge, env.huge, env.huge⟩, ⟨-env.huge, -env.huge, -env.huge⟩⟩ := rfl
    have y1 : -env.worldextent < (boundsOf env.huge sides).mins.y := by
      rw [e, (gt _ _ _).1]; exact ⟨by simp only; linarith, fun p hp' => (hp p hp').1.1⟩
    have z1 : -env.worldextent < (boundsOf env.huge sides).mins.z := by
      rw [e, (gt _ _ _).2.1]; exact ⟨by simp only; linarith, fun p hp' => (hp p hp').2.1⟩
    have y2 : (boundsOf env.huge sides).maxs.y < env.worldextent := by
      rw [e, (gt _ _ _).2.2.1]; exact ⟨by simp only; linarith, fun p hp' => (hp p hp').1.2⟩
    have z2 : (boundsOf env.huge sides).maxs.z < env.worldextent := by
      rw [e, (gt _ _ _).2.2.2]; exact ⟨by simp only; linarith, fun p hp' => (hp p hp').2.2⟩
    have hq : InBox (boundsOf env.huge sides) q := box_points fun g => ⟨q, by rw [hpts]; simp, le_refl _⟩
    obtain ⟨_, ⟨b1, b2⟩, b3, b4⟩ := hq
    unfold boundsOk
    unfold stackBoundsOk at hx
    simp only [Bool.and_eq_true, Bool.not_eq_true', Bool.or_eq_false_iff, decide_eq_false_iff_not, not_le, ge_iff_le] at hx ⊢
    refine ⟨⟨hx, ?_⟩, ?_⟩
    · exact ⟨⟨⟨y1, y2⟩, by linarith⟩, by linarith⟩
    · exact ⟨⟨⟨z1, z2⟩, by linarith⟩, by linarith⟩

/-- C98: for a brush strictly inside the world, `CheckSplitBrush` says yes exactly if `SplitBrush` makes two brushes. -/
theorem check_iff_split {env : Env K C} (hu : ∀ n, UnitNormal (env.planes n)) (hh : env.worldextent ≤ env.huge)
    (hw : 0 < env.worldextent) {n : Nat} {b : Brush K C}
    (hb : ∀ s ∈ b.sides, ∀ v ∈ s.w, |v.y| < env.worldextent ∧ |v.z| < env.worldextent) :
    checkSplit env n b = true ↔ ∃ f g, splitBrush env n b = (some f, some g) := by
  refine ⟨?_, fun ⟨f, g, h⟩ => check_of_split h⟩
  intro h
  have hfp : ∀ v ∈ points (frontSides (env.planes n) b.sides), |v.y| < env.worldextent ∧ |v.z| < env.worldextent := by
    intro v hv
    obtain ⟨s', hs', hv'⟩ := mem_points.1 hv
    obtain ⟨s, hs, _, _, hpt⟩ := (front_sides (pl := env.planes n) b.sides).1 s' hs'
    exact part_within (hu n) hpt (hb s hs) v hv'
  have hgp : ∀ v ∈ points (backSides (env.planes n) b.sides), |v.y| < env.worldextent ∧ |v.z| < env.worldextent := by
    intro v hv
    obtain ⟨s', hs', hv'⟩ := mem_points.1 hv
    obtain ⟨s, hs, _, _, hpt⟩ := (back_sides (pl := env.planes n) b.sides).1 s' hs'
    exact part_within (neg_unit (hu n)) hpt (hb s hs) v hv'
  unfold checkSplit at h
  unfold splitBrush
  simp only at h ⊢
  by_cases h1 : maxFront (env.planes n) (points b.sides) < 1 / 10
  · rw [if_pos h1] at h; cases h
  rw [if_neg h1] at h ⊢
  by_cases h2 : maxBack (env.planes n) (points b.sides) > -(1 / 10)
  · rw [if_pos h2] at h; cases h
  rw [if_neg h2] at h ⊢
  split at h
  · cases h
  · rename_i m hm
    by_cases h3 : tiny m = true
    · rw [if_pos h3] at h; cases h
    rw [if_neg h3] at h ⊢
    by_cases h4 : (stackBogus env (frontSides (env.planes n) b.sides) || stackBogus env (backSides (env.planes n) b.sides)) = true
    · rw [if_pos h4] at h; cases h
    rw [if_neg h4] at h
    rw [Bool.not_eq_true, Bool.or_eq_false_iff] at h4
    rw [bogus_of_stack hh hw hfp h4.1, bogus_of_stack hh hw hgp h4.2]
    simp only [Bool.false_and, Bool.false_eq_true, if_false]
    simp only [Bool.and_eq_true, Bool.not_eq_true', decide_eq_false_iff_not] at h
    unfold keepHalf
    simp only
    rw [if_neg h.1, if_neg h.2]
    exact ⟨_, _, rfl⟩

namespace Ex

/-- The hypotheses hold for a box and a plane that cuts it. -/
example : (∃ f g, splitBrush env 12 boxA = (some f, some g)) ∧
    (∀ s ∈ boxA.sides, ∀ v ∈ s.w, |v.y| < env.worldextent ∧ |v.z| < env.worldextent) :=
  ⟨(check_iff_split (env := env) (fun n => by
      show UnitNormal (planes n)
      unfold planes UnitNormal axisVec
      generalize (table[n / 2]?).getD (0, 0) = e
      obtain ⟨a, d⟩ := e
      by_cases h : n % 2 = 0 <;> match a with
        | 0 => simp [h, dot]
        | 1 => simp [h, dot]
        | 2 => simp [h, dot]) (by decide +kernel) (by decide +kernel) (by decide +kernel)).1 (by decide +kernel), by decide +kernel⟩

/-- A box that reaches up to the end of the world. -/
def farBox : Brush ℚ (List Nat) := box [2, 1, 6, 5, 10, 9] 0 64 0 4096 0 64 []

/-- C98, negation: a box that touches the end of the world, but not on the first axis, is said to be cut in two, and
`SplitBrush` makes nothing of it. -/
theorem check_not_split : checkSplit env 12 farBox = true ∧ splitBrush env 12 farBox = (none, none) := by
  decide +kernel

end Ex

end Verif.BrushBsp
