import Verif.BrushBsp.ChopSpec
import Verif.BrushBsp.LeafLemmas

/-! Chopping of brushes: what a cut does to a body, the pieces of a subtraction, the rounds. -/

namespace Verif.BrushBsp

open Geom Geom.Spec Spec

set_option linter.unusedSectionVars false

variable {K C : Type} [Field K] [LinearOrder K] [IsStrictOrderedRing K]

/-- The sides enclose the points of the brush, and the bounds hold what is strictly inside. -/
structure Body (env : Env K C) (b : Brush K C) : Prop where
  solid : Solid env (Inside env b) b.sides
  box : ∀ p, Within env b p → InBox b.bounds p

theorem closed_body {env : Env K C} {b : Brush K C} (h : Closed env b) : Body env b :=
  ⟨closed_solid h, fun p hp => h.box p fun s hs => le_of_lt (hp s hs)⟩

theorem flipNum_flipNum (n : Nat) : flipNum (flipNum n) = n := by
  unfold flipNum
  split <;> split <;> omega

/-- A solid is the solid of its own points. -/
theorem solid_inside {env : Env K C} {T : Vec K → Prop} {b : Brush K C} (h : Solid env T b.sides) (q : Vec K) :
    Inside env b q ↔ T q :=
  ⟨fun hq => solid_region h fun s hs _ => hq s hs, fun hq s hs => h.inside s hs q hq⟩

theorem solid_self {env : Env K C} {T : Vec K → Prop} {b : Brush K C} (h : Solid env T b.sides) :
    Solid env (Inside env b) b.sides := by
  have : Inside env b = T := funext fun q => propext (solid_inside h q)
  rw [this]; exact h

/-- The halves of a body. -/
structure Halves (env : Env K C) (n : Nat) (b f g : Brush K C) : Prop where
  far : ∃ s ∈ b.sides, ∃ v ∈ s.w, 1 / 10 ≤ (env.planes n).distTo v
  near : ∃ s ∈ b.sides, ∃ v ∈ s.w, (env.planes n).distTo v ≤ -(1 / 10)
  bodyF : Body env f
  bodyG : Body env g
  insideF : ∀ q, Inside env f q ↔ Inside env b q ∧ 0 ≤ (env.planes n).distTo q
  insideG : ∀ q, Inside env g q ↔ Inside env b q ∧ (env.planes n).distTo q ≤ 0
  withinG : ∀ q, Within env b q → (env.planes n).distTo q < 0 → Within env g q
  sameF : f.contents = b.contents ∧ f.orig = b.orig
  sameG : g.contents = b.contents ∧ g.orig = b.orig
  cutF : ∃ t ∈ f.sides, t.planenum = flipNum n ∧ t.onnode = true
  sidesF : ∀ t ∈ f.sides, t.planenum = flipNum n ∨ ∃ s ∈ b.sides, t.planenum = s.planenum
  sidesG : ∀ t ∈ g.sides, t.planenum = n ∨ ∃ s ∈ b.sides, t.planenum = s.planenum

/-- What a clean cut does with a body. -/
theorem split_body {env : Env K C} (hok : PlanesOk env) {n : Nat} {b : Brush K C} (hb : Body env b) (h : CleanCut env n b) :
    ((∀ s ∈ b.sides, ∀ v ∈ s.w, (env.planes n).distTo v < 1 / 10) ∧ splitBrush env n b = (none, some b)) ∨
    ((∀ s ∈ b.sides, ∀ v ∈ s.w, -(1 / 10) < (env.planes n).distTo v) ∧ splitBrush env n b = (some b, none)) ∨
    ∃ f g, splitBrush env n b = (some f, some g) ∧ Halves env n b f g := by
  rcases split_cases h with h | h | ⟨hf, hg, hn, m, hm, e⟩
  · exact Or.inl h
  · exact Or.inr (Or.inl h)
  · refine Or.inr (Or.inr ⟨_, _, e, ?_⟩)
    obtain ⟨sF, bF⟩ := front_half hok hb.solid hn hm hf
    obtain ⟨sG, bG⟩ := back_half hok hb.solid hn hm hg
    obtain ⟨k1, _⟩ := front_sides (pl := env.planes n) b.sides
    obtain ⟨k2, _⟩ := back_sides (pl := env.planes n) b.sides
    have iF := fun q => solid_inside (b := { b with
      sides := frontSides (env.planes n) b.sides ++ [cutSide (flipNum n) (Geom.flip m)],
      bounds := boundsOf env.huge (frontSides (env.planes n) b.sides) }) sF q
    have iG := fun q => solid_inside (b := { b with
      sides := backSides (env.planes n) b.sides ++ [cutSide n m],
      bounds := boundsOf env.huge (backSides (env.planes n) b.sides) }) sG q
    have wle : ∀ {x : Brush K C} {q}, Within env x q → Inside env x q := fun hw s hs => le_of_lt (hw s hs)
    refine ⟨hf, hg, ⟨solid_self sF, ?_⟩, ⟨solid_self sG, ?_⟩, iF, ?_, ?_, ⟨rfl, rfl⟩, ⟨rfl, rfl⟩, ?_, ?_, ?_⟩
    · intro p hp
      have h1 := (iF p).1 (wle hp)
      refine bF p h1.1 ?_
      have := hp (cutSide (flipNum n) (Geom.flip m)) (by simp)
      simp only [cutSide] at this
      rw [hok.flip] at this
      linarith
    · intro p hp
      have h1 := (iG p).1 (wle hp)
      refine bG p h1.1 ?_
      exact hp (cutSide n m) (by simp)
    · intro q
      rw [iG q, neg_distTo]
      constructor
      · rintro ⟨a, c⟩; exact ⟨a, by linarith⟩
      · rintro ⟨a, c⟩; exact ⟨a, by linarith⟩
    · intro q hq hd t ht
      rcases List.mem_append.1 ht with ht | ht
      · obtain ⟨s, hs, e, _⟩ := k2 t ht
        rw [e]; exact hq s hs
      · rw [List.mem_singleton] at ht
        subst ht
        exact hd
    · exact ⟨_, List.mem_append_right _ (List.mem_singleton.2 rfl), rfl, rfl⟩
    · intro t ht
      rcases List.mem_append.1 ht with ht | ht
      · obtain ⟨s, hs, e, _⟩ := k1 t ht
        exact Or.inr ⟨s, hs, e⟩
      · rw [List.mem_singleton] at ht
        subst ht
        exact Or.inl rfl
    · intro t ht
      rcases List.mem_append.1 ht with ht | ht
      · obtain ⟨s, hs, e, _⟩ := k2 t ht
        exact Or.inr ⟨s, hs, e⟩
      · rw [List.mem_singleton] at ht
        subst ht
        exact Or.inl rfl

/-- All vertices behind the plane: the brush is behind it. -/
theorem body_le {env : Env K C} {b : Brush K C} (hb : Body env b) (pl : Plane K)
    (h : ∀ s ∈ b.sides, ∀ v ∈ s.w, pl.distTo v ≤ 0) {q : Vec K} (hq : Inside env b q) : pl.distTo q ≤ 0 := by
  obtain ⟨x, _, e, _, s, hs, hh⟩ := solid_hull hb.solid pl hq ⟨0, 0, 0⟩
  rw [← e]
  exact inHull_le hh (h s hs)

theorem body_ge {env : Env K C} {b : Brush K C} (hb : Body env b) (pl : Plane K)
    (h : ∀ s ∈ b.sides, ∀ v ∈ s.w, 0 ≤ pl.distTo v) {q : Vec K} (hq : Inside env b q) : 0 ≤ pl.distTo q := by
  obtain ⟨x, _, e, _, s, hs, hh⟩ := solid_hull hb.solid pl hq ⟨0, 0, 0⟩
  rw [← e]
  exact inHull_ge hh (h s hs)

/-! The number of planes that go through a brush -/

/-- There are vertices on both sides of the plane. -/
def Through (env : Env K C) (b : Brush K C) (n : Nat) : Prop :=
  (∃ s ∈ b.sides, ∃ v ∈ s.w, 0 < (env.planes n).distTo v) ∧ ∃ s ∈ b.sides, ∃ v ∈ s.w, (env.planes n).distTo v < 0

instance (env : Env K C) (b : Brush K C) (n : Nat) : Decidable (Through env b n) := by
  unfold Through; infer_instance

/-- How many of the planes go through the brush. -/
def throughs (env : Env K C) (us : List Nat) (b : Brush K C) : Nat := us.countP fun n => decide (Through env b n)

/-- No plane goes through a part that does not go through the whole. -/
theorem through_part {env : Env K C} {b x : Brush K C} (hb : Body env b) (hx : Body env x)
    (hi : ∀ q, Inside env x q → Inside env b q) {n : Nat} (h : Through env x n) : Through env b n := by
  obtain ⟨⟨s, hs, v, hv, d⟩, ⟨s', hs', v', hv', d'⟩⟩ := h
  constructor
  · by_contra hcon
    push Not at hcon
    have := body_le hb (env.planes n) hcon (hi v (hx.solid.verts s hs v hv))
    linarith
  · by_contra hcon
    push Not at hcon
    have := body_ge hb (env.planes n) hcon (hi v' (hx.solid.verts s' hs' v' hv'))
    linarith

theorem countP_lt {us : List Nat} {p q : Nat → Bool} (h : ∀ n ∈ us, p n = true → q n = true) {m : Nat} (hm : m ∈ us)
    (hp : p m = false) (hq : q m = true) : us.countP p < us.countP q := by
  induction us with
  | nil => cases hm
  | cons a us ih =>
    have hle : us.countP p ≤ us.countP q := List.countP_mono_left fun n hn => h n (List.mem_cons_of_mem _ hn)
    rw [List.countP_cons, List.countP_cons]
    rcases List.mem_cons.1 hm with rfl | hm
    · rw [hp, hq]; simp; omega
    · have := ih (fun n hn => h n (List.mem_cons_of_mem _ hn)) hm
      by_cases ha : p a = true
      · rw [if_pos ha, if_pos (h a List.mem_cons_self ha)]; omega
      · rw [if_neg ha]; omega

theorem throughs_half {env : Env K C} {us : List Nat} {n : Nat} {b f g : Brush K C} (hb : Body env b)
    (h : Halves env n b f g) (hn : n ∈ us) :
    throughs env us f < throughs env us b ∧ throughs env us g < throughs env us b := by
  have hq : decide (Through env b n) = true := by
    rw [decide_eq_true_eq]
    obtain ⟨s, hs, v, hv, d⟩ := h.far
    obtain ⟨s', hs', v', hv', d'⟩ := h.near
    have ten : (0 : K) < 1 / 10 := by norm_num
    exact ⟨⟨s, hs, v, hv, by linarith⟩, ⟨s', hs', v', hv', by linarith⟩⟩
  constructor
  · refine countP_lt ?_ hn ?_ hq
    · intro k _ hk
      rw [decide_eq_true_eq] at hk ⊢
      exact through_part hb h.bodyF (fun q hq => ((h.insideF q).1 hq).1) hk
    · rw [decide_eq_false_iff_not]
      rintro ⟨_, s, hs, v, hv, d⟩
      have := ((h.insideF v).1 (h.bodyF.solid.verts s hs v hv)).2
      linarith
  · refine countP_lt ?_ hn ?_ hq
    · intro k _ hk
      rw [decide_eq_true_eq] at hk ⊢
      exact through_part hb h.bodyG (fun q hq => ((h.insideG q).1 hq).1) hk
    · rw [decide_eq_false_iff_not]
      rintro ⟨⟨s, hs, v, hv, d⟩, _⟩
      have := ((h.insideG v).1 (h.bodyG.solid.verts s hs v hv)).2
      linarith

/-- The weight of a list of brushes. -/
def weight (env : Env K C) (us : List Nat) (bs : List (Brush K C)) : Nat := (bs.map fun b => 2 ^ throughs env us b).sum

theorem weight_cons (env : Env K C) (us : List Nat) (b : Brush K C) (bs : List (Brush K C)) :
    weight env us (b :: bs) = 2 ^ throughs env us b + weight env us bs := by simp [weight]

theorem weight_append (env : Env K C) (us : List Nat) (a b : List (Brush K C)) :
    weight env us (a ++ b) = weight env us a + weight env us b := by simp [weight]

/-! Subtraction -/

/-- A piece that is cut off by one of the planes. -/
structure Piece (env : Env K C) (sides : List (Side K)) (b x : Brush K C) : Prop where
  body : Body env x
  part : ∀ q, Inside env x q → Inside env b q
  same : x.contents = b.contents ∧ x.orig = b.orig
  opposite : ∃ t ∈ x.sides, t.onnode = true ∧ ∃ s ∈ sides, t.planenum = flipNum s.planenum
  planes : ∀ t ∈ x.sides, (∃ s ∈ b.sides, t.planenum = s.planenum) ∨
    ∃ s ∈ sides, t.planenum = s.planenum ∨ t.planenum = flipNum s.planenum

theorem carve_spec {env : ChopEnv K C} (hok : PlanesOk env.toEnv) : ∀ (sides : List (Side K)) (b : Brush K C)
    (out l : List (Brush K C)), Body env.toEnv b → (∀ c ∈ carveCuts env sides b, CleanCut env.toEnv c.1 c.2) →
    carve env sides b out = some l →
    ∃ new, l = new ++ out ∧ (∀ x ∈ new, Piece env.toEnv sides b x) ∧
      (∀ us, (∀ s ∈ sides, s.planenum ∈ us) → weight env.toEnv us new + 1 ≤ 2 ^ throughs env.toEnv us b) ∧
      ((∀ c ∈ carveCuts env sides b, SharpCut env.toEnv c.1 c.2) → ∀ q, Inside env.toEnv b q →
        (∀ s ∈ sides, (env.planes s.planenum).distTo q ≤ 0) ∨ ∃ x ∈ new, Inside env.toEnv x q) := by
  intro sides
  induction sides with
  | nil =>
    intro b out l hb _ h
    simp only [carve, Option.some.injEq] at h
    refine ⟨[], by simp [h], by simp, fun us _ => ?_, fun _ q _ => Or.inl (by simp)⟩
    have : 1 ≤ 2 ^ throughs env.toEnv us b := Nat.one_le_two_pow
    simpa [weight] using this
  | cons s sides ih =>
    intro b out l hb hc h
    have hc0 := hc (s.planenum, b) (by simp [carveCuts])
    have lift : ∀ {x y : Brush K C}, Piece env.toEnv sides x y → (∀ q, Inside env.toEnv x q → Inside env.toEnv b q) →
        (x.contents = b.contents ∧ x.orig = b.orig) →
        (∀ t ∈ x.sides, t.planenum = s.planenum ∨ ∃ s ∈ b.sides, t.planenum = s.planenum) →
        Piece env.toEnv (s :: sides) b y := by
      intro x y hp hi hs hpl
      refine ⟨hp.body, fun q hq => hi q (hp.part q hq), ⟨hp.same.1.trans hs.1, hp.same.2.trans hs.2⟩, ?_, ?_⟩
      · obtain ⟨t, ht, ho, s', hs', e⟩ := hp.opposite
        exact ⟨t, ht, ho, s', List.mem_cons_of_mem _ hs', e⟩
      · intro t ht
        rcases hp.planes t ht with ⟨s', hs', e⟩ | ⟨s', hs', e⟩
        · rcases hpl s' hs' with e' | ⟨s'', hs'', e'⟩
          · exact Or.inr ⟨s, List.mem_cons_self, Or.inl (e.trans e')⟩
          · exact Or.inl ⟨s'', hs'', e.trans e'⟩
        · exact Or.inr ⟨s', List.mem_cons_of_mem _ hs', e⟩
    rcases split_body hok hb hc0 with ⟨hlt, e⟩ | ⟨_, e⟩ | ⟨f, g, e, hh⟩
    · simp only [carve, e] at h
      have hcut : carveCuts env (s :: sides) b = (s.planenum, b) :: carveCuts env sides b := by simp [carveCuts, e]
      rw [hcut] at hc ⊢
      obtain ⟨new, e1, e2, e3, e4⟩ := ih b out l hb (fun c hc' => hc c (List.mem_cons_of_mem _ hc')) h
      refine ⟨new, e1, fun x hx => lift (e2 x hx) (fun _ h => h) ⟨rfl, rfl⟩ fun t ht => Or.inr ⟨t, ht, rfl⟩,
        fun us hu => e3 us fun t ht => hu t (List.mem_cons_of_mem _ ht), ?_⟩
      intro hs q hq
      rcases e4 (fun c hc' => hs c (List.mem_cons_of_mem _ hc')) q hq with h1 | h1
      · left
        intro t ht
        rcases List.mem_cons.1 ht with rfl | ht
        · refine body_le hb _ ?_ hq
          intro t' ht' v hv
          by_contra hcon
          have := (hs (t.planenum, b) List.mem_cons_self).2 t' ht' v hv
          rw [abs_lt] at this
          have := this ⟨by linarith, hlt t' ht' v hv⟩
          linarith
        · exact h1 t ht
      · exact Or.inr h1
    · simp only [carve, e] at h
      cases h
    · simp only [carve, e] at h
      have hcut : carveCuts env (s :: sides) b = (s.planenum, b) :: carveCuts env sides g := by simp [carveCuts, e]
      rw [hcut] at hc ⊢
      obtain ⟨new, e1, e2, e3, e4⟩ := ih g (f :: out) l hh.bodyG (fun c hc' => hc c (List.mem_cons_of_mem _ hc')) h
      refine ⟨new ++ [f], by simp [e1], ?_, ?_, ?_⟩
      · intro x hx
        rcases List.mem_append.1 hx with hx | hx
        · exact lift (e2 x hx) (fun q hq => ((hh.insideG q).1 hq).1) hh.sameG hh.sidesG
        · rw [List.mem_singleton] at hx
          subst hx
          refine ⟨hh.bodyF, fun q hq => ((hh.insideF q).1 hq).1, hh.sameF, ?_, ?_⟩
          · obtain ⟨t, ht, e, ho⟩ := hh.cutF
            exact ⟨t, ht, ho, s, List.mem_cons_self, e⟩
          · intro t ht
            rcases hh.sidesF t ht with e | e
            · exact Or.inr ⟨s, List.mem_cons_self, Or.inr e⟩
            · exact Or.inl e
      · intro us hu
        have h1 := e3 us fun t ht => hu t (List.mem_cons_of_mem _ ht)
        obtain ⟨h2, h3⟩ := throughs_half hb hh (hu s List.mem_cons_self)
        rw [weight_append, weight_cons]
        have h4 : 2 ^ throughs env.toEnv us f * 2 ≤ 2 ^ throughs env.toEnv us b := by
          rw [← pow_succ]; exact Nat.pow_le_pow_right (by norm_num) h2
        have h5 : 2 ^ throughs env.toEnv us g * 2 ≤ 2 ^ throughs env.toEnv us b := by
          rw [← pow_succ]; exact Nat.pow_le_pow_right (by norm_num) h3
        have h6 : weight env.toEnv us ([] : List (Brush K C)) = 0 := rfl
        omega
      · intro hs q hq
        rcases le_total (env.planes s.planenum |>.distTo q) 0 with hd | hd
        · rcases e4 (fun c hc' => hs c (List.mem_cons_of_mem _ hc')) q ((hh.insideG q).2 ⟨hq, hd⟩) with h1 | ⟨x, hx, h1⟩
          · left
            intro t ht
            rcases List.mem_cons.1 ht with rfl | ht
            · exact hd
            · exact h1 t ht
          · exact Or.inr ⟨x, List.mem_append_left _ hx, h1⟩
        · exact Or.inr ⟨f, by simp, (hh.insideF q).2 ⟨hq, hd⟩⟩

/-- A brush that keeps nothing inside the other has no point strictly inside both. -/
theorem carve_none {env : ChopEnv K C} (hok : PlanesOk env.toEnv) : ∀ (sides : List (Side K)) (b : Brush K C)
    (out : List (Brush K C)), Body env.toEnv b → (∀ c ∈ carveCuts env sides b, SharpCut env.toEnv c.1 c.2) →
    carve env sides b out = none → ∀ q, Within env.toEnv b q → ∃ s ∈ sides, 0 ≤ (env.planes s.planenum).distTo q := by
  intro sides
  induction sides with
  | nil => intro b out _ _ h; simp [carve] at h
  | cons s sides ih =>
    intro b out hb hc h q hq
    have hc0 := hc (s.planenum, b) (by simp [carveCuts])
    by_contra hcon
    push Not at hcon
    have hd := hcon s List.mem_cons_self
    have hin : Inside env.toEnv b q := fun t ht => le_of_lt (hq t ht)
    rcases split_body hok hb hc0.1 with ⟨_, e⟩ | ⟨hgt, e⟩ | ⟨f, g, e, hh⟩
    · simp only [carve, e] at h
      have hcut : carveCuts env (s :: sides) b = (s.planenum, b) :: carveCuts env sides b := by simp [carveCuts, e]
      rw [hcut] at hc
      obtain ⟨t, ht, h1⟩ := ih b out hb (fun c hc' => hc c (List.mem_cons_of_mem _ hc')) h q hq
      exact absurd h1 (not_le.2 (hcon t (List.mem_cons_of_mem _ ht)))
    · have := body_ge hb (env.planes s.planenum) (fun t ht v hv => by
        by_contra hneg
        have h0 := hc0.2 t ht v hv
        rw [abs_lt] at h0
        have := h0 ⟨hgt t ht v hv, by linarith [show (0 : K) < 1 / 10 by norm_num]⟩
        linarith) hin
      linarith
    · simp only [carve, e] at h
      have hcut : carveCuts env (s :: sides) b = (s.planenum, b) :: carveCuts env sides g := by simp [carveCuts, e]
      rw [hcut] at hc
      obtain ⟨t, ht, h1⟩ := ih g (f :: out) hh.bodyG (fun c hc' => hc c (List.mem_cons_of_mem _ hc')) h q
        (hh.withinG q hq hd)
      exact absurd h1 (not_le.2 (hcon t (List.mem_cons_of_mem _ ht)))

/-! A round -/

theorem bite_missed {env : ChopEnv K C} {a b : Brush K C} (h : bite env a b = .missed) :
    mayBite env b a = true ∧ subtract env a b = none := by
  unfold bite at h
  split at h
  · rename_i hm
    split at h
    · rename_i e; exact ⟨hm, e⟩
    · cases h
    · cases h
  · cases h

theorem bite_swallowed {env : ChopEnv K C} {a b : Brush K C} (h : bite env a b = .swallowed) :
    mayBite env b a = true ∧ subtract env a b = some [] := by
  unfold bite at h
  split at h
  · rename_i hm
    split at h
    · cases h
    · rename_i e; exact ⟨hm, e⟩
    · cases h
  · cases h

theorem bite_parts {env : ChopEnv K C} {a b : Brush K C} {l : List (Brush K C)} (h : bite env a b = .parts l) :
    mayBite env b a = true ∧ subtract env a b = some l := by
  unfold bite at h
  split at h
  · rename_i hm
    split at h
    · cases h
    · cases h
    · rename_i e
      simp only [Bite.parts.injEq] at h
      rw [← h]
      exact ⟨hm, e⟩
  · cases h

theorem bite_may_not {env : ChopEnv K C} {a b : Brush K C} (h : bite env a b = .may_not) : mayBite env b a = false := by
  unfold bite at h
  split at h
  · split at h <;> cases h
  · rename_i hm; simpa using hm

/-- Nothing happens between the two brushes. -/
def Unbitten (env : ChopEnv K C) (frag : Bool) (b1 b2 : Brush K C) : Prop :=
  env.noChop b2.orig = true ∨ disjointTest b1 b2 = true ∨
  (env.noChop b2.orig = false ∧ disjointTest b1 b2 = false ∧
    ((mayBite env b2 b1 = true ∧ subtract env b1 b2 = none) ∨ (mayBite env b1 b2 = true ∧ subtract env b2 b1 = none))) ∨
  (mayBite env b2 b1 = false ∧ mayBite env b1 b2 = false) ∨ frag = false

/-- What happens with a later brush. -/
def Does (env : ChopEnv K C) (b1 : Brush K C) (l : List (Brush K C)) (pre : List (Brush K C)) : Act K C → Prop
  | .gone1 => ∃ b2 ∈ l, env.noChop b2.orig = false ∧ disjointTest b1 b2 = false ∧ mayBite env b2 b1 = true ∧
      subtract env b1 b2 = some []
  | .cut1 sub => ∃ b2 ∈ l, env.noChop b2.orig = false ∧ disjointTest b1 b2 = false ∧ mayBite env b2 b1 = true ∧
      subtract env b1 b2 = some sub
  | .after rest => ∃ l1 b2 l2 new, l = l1 ++ b2 :: l2 ∧ rest = pre ++ l1 ++ new ++ l2 ∧ env.noChop b2.orig = false ∧
      disjointTest b1 b2 = false ∧ mayBite env b1 b2 = true ∧ subtract env b2 b1 = some new

theorem scan_spec {env : ChopEnv K C} {frag : Bool} {b1 : Brush K C} : ∀ (l pre : List (Brush K C)),
    (scan env frag b1 pre l = none → ∀ b2 ∈ l, Unbitten env frag b1 b2) ∧
    ∀ a, scan env frag b1 pre l = some a → Does env b1 l pre a := by
  intro l
  induction l with
  | nil => intro pre; simp [scan]
  | cons b2 l ih =>
    intro pre
    have skip : ∀ {r : Option (Act K C)}, r = scan env frag b1 (pre ++ [b2]) l → Unbitten env frag b1 b2 →
        (r = none → ∀ x ∈ b2 :: l, Unbitten env frag b1 x) ∧ ∀ a, r = some a → Does env b1 (b2 :: l) pre a := by
      rintro r rfl hi
      obtain ⟨i1, i2⟩ := ih (pre ++ [b2])
      refine ⟨fun h x hx => ?_, fun a h => ?_⟩
      · rcases List.mem_cons.1 hx with rfl | hx
        · exact hi
        · exact i1 h x hx
      · have := i2 a h
        cases a with
        | gone1 =>
          obtain ⟨x, hx, h⟩ := this
          exact ⟨x, List.mem_cons_of_mem _ hx, h⟩
        | cut1 sub =>
          obtain ⟨x, hx, h⟩ := this
          exact ⟨x, List.mem_cons_of_mem _ hx, h⟩
        | after rest =>
          obtain ⟨l1, x, l2, new, e1, e2, h⟩ := this
          exact ⟨b2 :: l1, x, l2, new, by simp [e1], by simp [e2], h⟩
    have act : ∀ {r : Option (Act K C)} {a : Act K C}, r = some a → Does env b1 (b2 :: l) pre a →
        (r = none → ∀ x ∈ b2 :: l, Unbitten env frag b1 x) ∧ ∀ a, r = some a → Does env b1 (b2 :: l) pre a := by
      rintro r a rfl hd
      refine ⟨fun h => by (cases h), fun a' h => ?_⟩
      cases h
      exact hd
    unfold scan
    by_cases hn : env.noChop b2.orig = true
    · rw [if_pos hn]
      exact skip rfl (Or.inl hn)
    · rw [if_neg hn]
      have hn' : env.noChop b2.orig = false := by simpa using hn
      by_cases hd : disjointTest b1 b2 = true
      · rw [if_pos hd]
        exact skip rfl (Or.inr (Or.inl hd))
      · rw [if_neg hd]
        have hd' : disjointTest b1 b2 = false := by simpa using hd
        have m1 : bite env b1 b2 = .missed → Unbitten env frag b1 b2 := fun h =>
          Or.inr (Or.inr (Or.inl ⟨hn', hd', Or.inl (bite_missed h)⟩))
        have m2 : bite env b2 b1 = .missed → Unbitten env frag b1 b2 := fun h =>
          Or.inr (Or.inr (Or.inl ⟨hn', hd', Or.inr (bite_missed h)⟩))
        have fr : ∀ {x : Bool}, (!frag && x) = true → Unbitten env frag b1 b2 := by
          intro x h
          have : frag = false := by cases frag <;> simp_all
          exact Or.inr (Or.inr (Or.inr (Or.inr this)))
        have g1 : bite env b1 b2 = .swallowed → Does env b1 (b2 :: l) pre .gone1 := fun h =>
          ⟨b2, List.mem_cons_self, hn', hd', bite_swallowed h⟩
        have c1 : ∀ {sub}, bite env b1 b2 = .parts sub → Does env b1 (b2 :: l) pre (.cut1 sub) := fun h =>
          ⟨b2, List.mem_cons_self, hn', hd', bite_parts h⟩
        have g2 : bite env b2 b1 = .swallowed → Does env b1 (b2 :: l) pre (.after (pre ++ l)) := fun h =>
          ⟨[], b2, l, [], rfl, by simp, hn', hd', bite_swallowed h⟩
        have c2 : ∀ {sub}, bite env b2 b1 = .parts sub → Does env b1 (b2 :: l) pre (.after (pre ++ sub ++ l)) := fun h =>
          ⟨[], b2, l, _, rfl, by simp, hn', hd', bite_parts h⟩
        cases h1 : bite env b1 b2 with
        | missed => exact skip rfl (m1 h1)
        | swallowed => exact act rfl (g1 h1)
        | may_not =>
          cases h2 : bite env b2 b1 with
          | missed => exact skip rfl (m2 h2)
          | swallowed => exact act rfl (g2 h2)
          | may_not =>
            exact skip rfl (Or.inr (Or.inr (Or.inr (Or.inl ⟨bite_may_not h1, bite_may_not h2⟩))))
          | parts sub2 =>
            dsimp only
            by_cases hf : (!frag && decide (sub2.length > 1)) = true
            · rw [if_pos hf]; exact skip rfl (fr hf)
            · rw [if_neg hf]; exact act rfl (c2 h2)
        | parts sub =>
          cases h2 : bite env b2 b1 with
          | missed => exact skip rfl (m2 h2)
          | swallowed => exact act rfl (g2 h2)
          | may_not =>
            dsimp only
            by_cases hf : (!frag && decide (sub.length > 1)) = true
            · rw [if_pos hf]; exact skip rfl (fr hf)
            · rw [if_neg hf]; exact act rfl (c1 h1)
          | parts sub2 =>
            dsimp only
            by_cases hf : (!frag && decide (sub.length > 1) && decide (sub2.length > 1)) = true
            · rw [if_pos hf]
              rw [Bool.and_assoc] at hf
              exact skip rfl (fr hf)
            · rw [if_neg hf]
              by_cases hlt : sub.length < sub2.length
              · rw [if_pos hlt]; exact act rfl (c1 h1)
              · rw [if_neg hlt]; exact act rfl (c2 h2)

/-- A round, in one piece. -/
theorem step_spec {env : ChopEnv K C} {frag : Bool} {done rest : List (Brush K C)} {b1 : Brush K C} :
    ((env.noChop b1.orig = true ∨ ∀ b2 ∈ rest, Unbitten env frag b1 b2) ∧
      chopStep env frag ⟨done, b1 :: rest⟩ = ⟨done ++ [b1], rest⟩) ∨
    (env.noChop b1.orig = false ∧ ∃ b2 ∈ rest, env.noChop b2.orig = false ∧ disjointTest b1 b2 = false ∧
      mayBite env b2 b1 = true ∧ ∃ sub, subtract env b1 b2 = some sub ∧
      chopStep env frag ⟨done, b1 :: rest⟩ = ⟨done ++ sub, rest⟩) ∨
    (env.noChop b1.orig = false ∧ ∃ l1 b2 l2 new, rest = l1 ++ b2 :: l2 ∧ env.noChop b2.orig = false ∧
      disjointTest b1 b2 = false ∧ mayBite env b1 b2 = true ∧ subtract env b2 b1 = some new ∧
      chopStep env frag ⟨done, b1 :: rest⟩ = ⟨done, b1 :: (l1 ++ new ++ l2)⟩) := by
  unfold chopStep
  simp only
  by_cases hn : env.noChop b1.orig = true
  · rw [if_pos hn]
    exact Or.inl ⟨Or.inl hn, rfl⟩
  · rw [if_neg hn]
    have hn' : env.noChop b1.orig = false := by simpa using hn
    obtain ⟨i1, i2⟩ := scan_spec (env := env) (frag := frag) (b1 := b1) rest []
    cases h : scan env frag b1 [] rest with
    | none => exact Or.inl ⟨Or.inr (i1 h), rfl⟩
    | some a =>
      have := i2 a h
      cases a with
      | gone1 =>
        obtain ⟨b2, h1, h2, h3, h4, h5⟩ := this
        exact Or.inr (Or.inl ⟨hn', b2, h1, h2, h3, h4, [], h5, by simp⟩)
      | cut1 sub =>
        obtain ⟨b2, h1, h2, h3, h4, h5⟩ := this
        exact Or.inr (Or.inl ⟨hn', b2, h1, h2, h3, h4, sub, h5, rfl⟩)
      | after r =>
        obtain ⟨l1, b2, l2, new, e1, e2, h⟩ := this
        exact Or.inr (Or.inr ⟨hn', l1, b2, l2, new, e1, h.1, h.2.1, h.2.2.1, h.2.2.2, by simp [e2]⟩)

theorem mayBite_solid {env : ChopEnv K C} {a b : Brush K C} (h : mayBite env a b = true) :
    env.isSolid a.contents = true ∧ env.isSolid b.contents = true ∧
      (env.isDetail a.contents = true → env.isDetail b.contents = true) := by
  unfold mayBite at h
  split at h
  · cases h
  · rename_i hd
    simp only [Bool.and_eq_true] at h
    refine ⟨h.1, h.2, fun ha => ?_⟩
    by_contra hb
    apply hd
    simpa [ha] using hb

/-- Cuts that may be made in a round. -/
theorem cuts_of {env : ChopEnv K C} {b1 b2 : Brush K C} {rest : List (Brush K C)} (h1 : env.noChop b1.orig = false)
    (h2 : env.noChop b2.orig = false) (hd : disjointTest b1 b2 = false)
    (hs : env.isSolid b1.contents = true ∧ env.isSolid b2.contents = true) (hm : b2 ∈ rest) :
    (∀ c ∈ carveCuts env b2.sides b1, c ∈ stepCuts env (b1 :: rest)) ∧
    ∀ c ∈ carveCuts env b1.sides b2, c ∈ stepCuts env (b1 :: rest) := by
  have hc : compared env b1 b2 = true := by simp [compared, h1, h2, hd, hs.1, hs.2]
  constructor <;> intro c hc' <;>
    exact List.mem_flatMap.2 ⟨b2, List.mem_filter.2 ⟨hm, hc⟩, by simp [hc']⟩

theorem piece_opposite {env : Env K C} {b1 b2 x : Brush K C} (h : Piece env b1.sides b2 x) : disjointTest b1 x = true := by
  obtain ⟨t, ht, _, s, hs, e⟩ := h.opposite
  simp only [disjointTest, Bool.or_eq_true, List.any_eq_true, beq_iff_eq]
  exact Or.inr ⟨s, hs, t, ht, by rw [e, flipNum_flipNum]⟩

/-! Contents and origin of the pieces, for all brushes -/

theorem split_same {env : Env K C} {n : Nat} {b : Brush K C} :
    (∀ f, (splitBrush env n b).1 = some f → f.contents = b.contents ∧ f.orig = b.orig) ∧
    ∀ g, (splitBrush env n b).2 = some g → g.contents = b.contents ∧ g.orig = b.orig := by
  have whole : ∀ {x : Option (Brush K C) × Option (Brush K C)}, (x = (some b, none) ∨ x = (none, some b) ∨ x = (none, none)) →
      (∀ f, x.1 = some f → f.contents = b.contents ∧ f.orig = b.orig) ∧
      ∀ g, x.2 = some g → g.contents = b.contents ∧ g.orig = b.orig := by
    rintro x (rfl | rfl | rfl) <;> constructor <;> intro f hf <;> cases hf <;> exact ⟨rfl, rfl⟩
  unfold splitBrush
  simp only
  by_cases h1 : maxFront (env.planes n) (points b.sides) < 1 / 10
  · rw [if_pos h1]; exact whole (Or.inr (Or.inl rfl))
  rw [if_neg h1]
  by_cases h2 : maxBack (env.planes n) (points b.sides) > -(1 / 10)
  · rw [if_pos h2]; exact whole (Or.inl rfl)
  rw [if_neg h2]
  have mostly : (if mostlyFront (env.planes n) (points b.sides) = true then (some b, none) else (none, some b)) =
      ((some b, none) : Option (Brush K C) × Option (Brush K C)) ∨
      (if mostlyFront (env.planes n) (points b.sides) = true then (some b, none) else (none, some b)) =
      ((none, some b) : Option (Brush K C) × Option (Brush K C)) := by
    split
    · exact Or.inl rfl
    · exact Or.inr rfl
  cases cutPolygon env (env.planes n) b.sides with
  | none =>
    simp only
    rcases mostly with e | e <;> rw [e]
    · exact whole (Or.inl rfl)
    · exact whole (Or.inr (Or.inl rfl))
  | some m =>
    simp only
    by_cases h3 : tiny m = true
    · rw [if_pos h3]
      rcases mostly with e | e <;> rw [e]
      · exact whole (Or.inl rfl)
      · exact whole (Or.inr (Or.inl rfl))
    rw [if_neg h3]
    split
    · exact whole (Or.inr (Or.inr rfl))
    split
    · exact whole (Or.inl rfl)
    split
    · exact whole (Or.inr (Or.inl rfl))
    · constructor <;> intro f hf <;> rw [keepHalf_some hf] <;> exact ⟨rfl, rfl⟩

theorem carve_same {env : ChopEnv K C} : ∀ (sides : List (Side K)) (b : Brush K C) (out l : List (Brush K C)),
    carve env sides b out = some l → ∃ new, l = new ++ out ∧ ∀ x ∈ new, x.contents = b.contents ∧ x.orig = b.orig := by
  intro sides
  induction sides with
  | nil =>
    intro b out l h
    simp only [carve, Option.some.injEq] at h
    exact ⟨[], by simp [h], by simp⟩
  | cons s sides ih =>
    intro b out l h
    simp only [carve] at h
    obtain ⟨k1, k2⟩ := split_same (env := env.toEnv) (n := s.planenum) (b := b)
    cases h2 : (splitBrush env.toEnv s.planenum b).2 with
    | none => rw [h2] at h; cases h
    | some g =>
      rw [h2] at h
      obtain ⟨g1, g2⟩ := k2 g h2
      obtain ⟨new, e, hn⟩ := ih _ _ _ h
      have hn' : ∀ x ∈ new, x.contents = b.contents ∧ x.orig = b.orig := fun x hx =>
        ⟨(hn x hx).1.trans g1, (hn x hx).2.trans g2⟩
      cases h1 : (splitBrush env.toEnv s.planenum b).1 with
      | none =>
        rw [h1] at e
        exact ⟨new, e, hn'⟩
      | some f =>
        rw [h1] at e
        refine ⟨new ++ [f], by simp [e], fun x hx => ?_⟩
        rcases List.mem_append.1 hx with hx | hx
        · exact hn' x hx
        · rw [List.mem_singleton] at hx
          subst hx
          exact k1 x h1

theorem subtract_same {env : ChopEnv K C} {a b : Brush K C} {l : List (Brush K C)} (h : subtract env a b = some l) :
    ∀ x ∈ l, x.contents = a.contents ∧ x.orig = a.orig := by
  obtain ⟨new, e, hn⟩ := carve_same _ _ _ _ h
  rw [List.append_nil] at e
  rw [e]; exact hn

/-! Points strictly inside -/

/-- Around a point strictly inside there is room in every direction. -/
theorem within_open {env : Env K C} {b : Brush K C} {p : Vec K} (h : Within env b p) (u : Vec K) :
    ∃ t, 0 < t ∧ Within env b (go p u t) := by
  have key : ∀ l : List (Side K), (∀ s ∈ l, (env.planes s.planenum).distTo p < 0) →
      ∃ t, 0 < t ∧ ∀ t', 0 < t' → t' ≤ t → ∀ s ∈ l, (env.planes s.planenum).distTo (go p u t') < 0 := by
    intro l
    induction l with
    | nil => intro _; exact ⟨1, one_pos, by simp⟩
    | cons s l ih =>
      intro hl
      obtain ⟨t, ht, hall⟩ := ih fun s hs => hl s (List.mem_cons_of_mem _ hs)
      have hs := hl s List.mem_cons_self
      rcases le_or_gt (dot u (env.planes s.planenum).normal) 0 with hd | hd
      · refine ⟨t, ht, fun t' h0 h1 s' hs' => ?_⟩
        rcases List.mem_cons.1 hs' with rfl | hs'
        · rw [dist_go]
          have := mul_nonpos_of_nonneg_of_nonpos (le_of_lt h0) hd
          linarith
        · exact hall t' h0 h1 s' hs'
      · set r := -(env.planes s.planenum).distTo p / dot u (env.planes s.planenum).normal with hr
        have hr0 : 0 < r := div_pos (by linarith) hd
        have hm : r * dot u (env.planes s.planenum).normal = -(env.planes s.planenum).distTo p :=
          div_mul_cancel₀ _ (ne_of_gt hd)
        refine ⟨min t (r / 2), lt_min ht (by linarith), fun t' h0 h1 s' hs' => ?_⟩
        rcases List.mem_cons.1 hs' with rfl | hs'
        · rw [dist_go]
          have h2 : t' ≤ r / 2 := le_trans h1 (min_le_right _ _)
          have h3 : t' * dot u (env.planes s'.planenum).normal < r * dot u (env.planes s'.planenum).normal :=
            mul_lt_mul_of_pos_right (by linarith) hd
          linarith
        · exact hall t' h0 (le_trans h1 (min_le_left _ _)) s' hs'
  obtain ⟨t, ht, hall⟩ := key b.sides h
  exact ⟨t, ht, hall t ht (le_refl t)⟩

theorem within_part {env : Env K C} (hok : PlanesOk env) {b x : Brush K C}
    (hi : ∀ q, Inside env x q → Inside env b q) {p : Vec K} (h : Within env x p) : Within env b p := by
  intro s hs
  obtain ⟨t, ht, hw⟩ := within_open h (env.planes s.planenum).normal
  have h1 := hi _ (fun s hs => le_of_lt (hw s hs)) s hs
  rw [dist_go] at h1
  have hu : dot (env.planes s.planenum).normal (env.planes s.planenum).normal = 1 := hok.unit s.planenum
  rw [hu] at h1
  linarith

/-- Brushes that pass the test have no common point strictly inside both. -/
theorem disjoint_none {env : Env K C} (hok : PlanesOk env) {a b : Brush K C} (ha : Body env a) (hb : Body env b)
    (h : disjointTest a b = true) {p : Vec K} (hpa : Within env a p) (hpb : Within env b p) : False := by
  simp only [disjointTest, Bool.or_eq_true, List.any_eq_true, beq_iff_eq] at h
  rcases h with h | ⟨s, hs, t, ht, e⟩
  · have hp : ∀ u, ∃ t, 0 < t ∧ InBox a.bounds (go p u t) := fun u => by
      obtain ⟨t, ht, hw⟩ := within_open hpa u
      exact ⟨t, ht, ha.box _ hw⟩
    have hq := hb.box p hpb
    obtain ⟨tx, tx0, ix⟩ := hp ⟨1, 0, 0⟩
    obtain ⟨tx', tx0', ix'⟩ := hp ⟨-1, 0, 0⟩
    obtain ⟨ty, ty0, iy⟩ := hp ⟨0, 1, 0⟩
    obtain ⟨ty', ty0', iy'⟩ := hp ⟨0, -1, 0⟩
    obtain ⟨tz, tz0, iz⟩ := hp ⟨0, 0, 1⟩
    obtain ⟨tz', tz0', iz'⟩ := hp ⟨0, 0, -1⟩
    simp only [InBox, go] at ix ix' iy iy' iz iz' hq
    simp only [apart, Bool.or_eq_true, decide_eq_true_eq, ge_iff_le] at h
    obtain ⟨⟨q1, q2⟩, ⟨q3, q4⟩, ⟨q5, q6⟩⟩ := hq
    rcases h with ((h | h) | (h | h)) | (h | h)
    · linarith [ix.1.2]
    · linarith [ix'.1.1]
    · linarith [iy.2.1.2]
    · linarith [iy'.2.1.1]
    · linarith [iz.2.2.2]
    · linarith [iz'.2.2.1]
  · have h1 := hpa s hs
    have h2 := hpb t ht
    rw [e, hok.flip] at h1
    linarith

end Verif.BrushBsp
