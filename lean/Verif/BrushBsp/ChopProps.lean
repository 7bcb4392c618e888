import Verif.BrushBsp.ChopLemmas

/-! Properties of the chopping of brushes. -/

namespace Verif.BrushBsp

open Geom Geom.Spec Spec

set_option linter.unusedSectionVars false

variable {K C : Type} [Field K] [LinearOrder K] [IsStrictOrderedRing K]

theorem run_nil {env : ChopEnv K C} {frag : Bool} {fuel : Nat} {done : List (Brush K C)} :
    chopRun env frag fuel ⟨done, []⟩ = some done := by
  cases fuel <;> simp [chopRun]

theorem run_cons {env : ChopEnv K C} {frag : Bool} {fuel : Nat} {done rest : List (Brush K C)} {b : Brush K C} :
    chopRun env frag (fuel + 1) ⟨done, b :: rest⟩ = chopRun env frag fuel (chopStep env frag ⟨done, b :: rest⟩) := by
  simp [chopRun]

theorem cuts_cons {env : ChopEnv K C} {frag : Bool} {fuel : Nat} {done rest : List (Brush K C)} {b : Brush K C} :
    runCuts env frag (fuel + 1) ⟨done, b :: rest⟩ =
      stepCuts env (b :: rest) ++ runCuts env frag fuel (chopStep env frag ⟨done, b :: rest⟩) := by
  simp [runCuts]

/-- After the end no cuts are made. -/
theorem cuts_stable {env : ChopEnv K C} {frag : Bool} : ∀ (k : Nat) (st : ChopState K C) (N : Nat),
    (chopRun env frag k st).isSome → k ≤ N → runCuts env frag N st = runCuts env frag k st := by
  intro k
  induction k with
  | zero =>
    rintro ⟨done, todo⟩ N h _
    cases todo with
    | nil => cases N <;> simp [runCuts]
    | cons b rest => simp [chopRun] at h
  | succ k ih =>
    rintro ⟨done, todo⟩ N h hN
    cases todo with
    | nil => cases N <;> simp [runCuts]
    | cons b rest =>
      obtain ⟨N', rfl⟩ : ∃ N', N = N' + 1 := ⟨N - 1, by omega⟩
      rw [run_cons] at h
      rw [cuts_cons, cuts_cons, ih _ N' h (by omega)]

/-- The pieces of a subtraction in a round. -/
theorem pieces {env : ChopEnv K C} (hok : PlanesOk env.toEnv) {a b : Brush K C} {l : List (Brush K C)}
    (ha : Body env.toEnv a) (hc : ∀ c ∈ carveCuts env b.sides a, CleanCut env.toEnv c.1 c.2)
    (h : subtract env a b = some l) :
    (∀ x ∈ l, Piece env.toEnv b.sides a x) ∧
    (∀ us, (∀ s ∈ b.sides, s.planenum ∈ us) → weight env.toEnv us l + 1 ≤ 2 ^ throughs env.toEnv us a) ∧
    ((∀ c ∈ carveCuts env b.sides a, SharpCut env.toEnv c.1 c.2) → ∀ q, Inside env.toEnv a q →
      Inside env.toEnv b q ∨ ∃ x ∈ l, Inside env.toEnv x q) := by
  obtain ⟨new, e, h1, h2, h3⟩ := carve_spec hok _ _ _ _ ha hc h
  rw [List.append_nil] at e
  rw [e]
  exact ⟨h1, h2, h3⟩

theorem run_ends {env : ChopEnv K C} (hok : PlanesOk env.toEnv) {frag : Bool} (us : List Nat)
    (hflip : ∀ n ∈ us, flipNum n ∈ us) : ∀ (fuel : Nat) (done todo : List (Brush K C)),
    (∀ b ∈ todo, Body env.toEnv b) → (∀ b ∈ todo, ∀ s ∈ b.sides, s.planenum ∈ us) →
    (∀ c ∈ runCuts env frag fuel ⟨done, todo⟩, CleanCut env.toEnv c.1 c.2) → weight env.toEnv us todo ≤ fuel →
    (chopRun env frag fuel ⟨done, todo⟩).isSome := by
  intro fuel
  induction fuel with
  | zero =>
    intro done todo _ _ _ hw
    cases todo with
    | nil => rw [run_nil]; rfl
    | cons b rest =>
      exfalso
      rw [weight_cons] at hw
      have : 1 ≤ 2 ^ throughs env.toEnv us b := Nat.one_le_two_pow
      omega
  | succ fuel ih =>
    intro done todo hb hu hc hw
    cases todo with
    | nil => rw [run_nil]; rfl
    | cons b1 rest =>
      rw [run_cons]
      rw [cuts_cons] at hc
      have hc1 := fun c h => hc c (List.mem_append_left _ h)
      have hc2 := fun c h => hc c (List.mem_append_right _ h)
      have hone : 1 ≤ 2 ^ throughs env.toEnv us b1 := Nat.one_le_two_pow
      rw [weight_cons] at hw
      have hbr : ∀ b ∈ rest, Body env.toEnv b := fun b h => hb b (List.mem_cons_of_mem _ h)
      have hur : ∀ b ∈ rest, ∀ s ∈ b.sides, s.planenum ∈ us := fun b h => hu b (List.mem_cons_of_mem _ h)
      rcases step_spec (env := env) (frag := frag) (done := done) (rest := rest) (b1 := b1) with
        ⟨_, e⟩ | ⟨_, b2, _, _, _, _, sub, _, e⟩ | ⟨hn, l1, b2, l2, new, er, h2, h3, h4, h5, e⟩
      · rw [e] at hc2 ⊢
        exact ih _ _ hbr hur hc2 (by omega)
      · rw [e] at hc2 ⊢
        exact ih _ _ hbr hur hc2 (by omega)
      · rw [e] at hc2 ⊢
        have hm : b2 ∈ rest := by simp [er]
        obtain ⟨s1, s2, _⟩ := mayBite_solid h4
        have hcc := (cuts_of hn h2 h3 ⟨s1, s2⟩ hm).2
        obtain ⟨p1, p2, _⟩ := pieces hok (hbr b2 hm) (fun c h => hc1 c (hcc c h)) h5
        have p2 := p2 us (hu b1 List.mem_cons_self)
        have hsub : ∀ b ∈ b1 :: (l1 ++ new ++ l2), b ∈ new ∨ b ∈ b1 :: rest := by
          intro b hb'
          rw [er]
          simp only [List.mem_cons, List.mem_append] at hb' ⊢
          tauto
        refine ih _ _ ?_ ?_ hc2 ?_
        · intro b hb'
          rcases hsub b hb' with h | h
          · exact (p1 b h).body
          · exact hb b h
        · intro b hb' s hs
          rcases hsub b hb' with h | h
          · rcases (p1 b h).planes s hs with ⟨t, ht, e⟩ | ⟨t, ht, e | e⟩
            · rw [e]; exact hur b2 hm t ht
            · rw [e]; exact hu b1 List.mem_cons_self t ht
            · rw [e]; exact hflip _ (hu b1 List.mem_cons_self t ht)
          · exact hu b h s hs
        · rw [weight_cons, weight_append, weight_append]
          rw [er, weight_append, weight_cons] at hw
          omega

/-- Chopping ends. For closed brushes whose cuts are clean the number of rounds is at most the number of brushes times
2 to the number of sides of all brushes, doubled. -/
theorem chop_ends {env : ChopEnv K C} (hok : PlanesOk env.toEnv) {frag : Bool} {bs : List (Brush K C)}
    (hc : ∀ b ∈ bs, Closed env.toEnv b) {fuel : Nat}
    (hf : bs.length * 2 ^ (2 * (bs.flatMap (·.sides)).length) ≤ fuel)
    (hcuts : ∀ c ∈ chopCuts env frag fuel bs, CleanCut env.toEnv c.1 c.2) :
    (chopBrushes env frag fuel bs).isSome := by
  set ns := (bs.flatMap (·.sides)).map (·.planenum) with hns
  refine run_ends hok (ns ++ ns.map flipNum) ?_ fuel [] bs (fun b hb => closed_body (hc b hb)) ?_ hcuts ?_
  · intro n hn
    rcases List.mem_append.1 hn with h | h
    · exact List.mem_append_right _ (List.mem_map.2 ⟨n, h, rfl⟩)
    · obtain ⟨k, hk, rfl⟩ := List.mem_map.1 h
      rw [flipNum_flipNum]
      exact List.mem_append_left _ hk
  · intro b hb s hs
    apply List.mem_append_left
    rw [hns]
    exact List.mem_map.2 ⟨s, List.mem_flatMap.2 ⟨b, hb, hs⟩, rfl⟩
  · refine le_trans ?_ hf
    have hl : (ns ++ ns.map flipNum).length = 2 * (bs.flatMap (·.sides)).length := by
      simp only [hns, List.length_append, List.length_map]; omega
    have key : ∀ l : List (Brush K C), weight env.toEnv (ns ++ ns.map flipNum) l ≤
        l.length * 2 ^ (2 * (bs.flatMap (·.sides)).length) := by
      intro l
      induction l with
      | nil => simp [weight]
      | cons b l ih =>
        rw [weight_cons, List.length_cons, Nat.succ_mul]
        have : 2 ^ throughs env.toEnv (ns ++ ns.map flipNum) b ≤ 2 ^ (2 * (bs.flatMap (·.sides)).length) := by
          apply Nat.pow_le_pow_right (by norm_num)
          rw [← hl]
          exact List.countP_le_length
        omega
    exact key bs

/-! Points -/

theorem run_points {env : ChopEnv K C} (hok : PlanesOk env.toEnv) {frag : Bool} (Q : C → Prop)
    (hQ : ∀ a b : Brush K C, mayBite env b a = true → Q a.contents → Q b.contents) (p : Vec K) :
    ∀ (fuel : Nat) (done todo out : List (Brush K C)), (∀ b ∈ todo, Body env.toEnv b) →
    (∀ c ∈ runCuts env frag fuel ⟨done, todo⟩, SharpCut env.toEnv c.1 c.2) →
    chopRun env frag fuel ⟨done, todo⟩ = some out →
    ((∃ b ∈ out, Q b.contents ∧ Inside env.toEnv b p) ↔ ∃ b ∈ done ++ todo, Q b.contents ∧ Inside env.toEnv b p) := by
  intro fuel
  induction fuel with
  | zero =>
    intro done todo out _ _ h
    cases todo with
    | nil =>
      rw [run_nil] at h
      simp only [Option.some.injEq] at h
      simp [h]
    | cons b rest => simp [chopRun] at h
  | succ fuel ih =>
    intro done todo out hb hc h
    cases todo with
    | nil =>
      rw [run_nil] at h
      simp only [Option.some.injEq] at h
      simp [h]
    | cons b1 rest =>
      rw [run_cons] at h
      rw [cuts_cons] at hc
      have hc1 := fun c h => hc c (List.mem_append_left _ h)
      have hc2 := fun c h => hc c (List.mem_append_right _ h)
      have hbr : ∀ b ∈ rest, Body env.toEnv b := fun b h => hb b (List.mem_cons_of_mem _ h)
      rcases step_spec (env := env) (frag := frag) (done := done) (rest := rest) (b1 := b1) with
        ⟨_, e⟩ | ⟨hn, b2, hm, h2, h3, h4, sub, h5, e⟩ | ⟨hn, l1, b2, l2, new, er, h2, h3, h4, h5, e⟩
      · rw [e] at hc2 h
        rw [ih _ _ _ hbr hc2 h]
        simp
      · rw [e] at hc2 h
        rw [ih _ _ _ hbr hc2 h]
        obtain ⟨s1, s2, _⟩ := mayBite_solid h4
        have hcc := (cuts_of hn h2 h3 ⟨s2, s1⟩ hm).1
        obtain ⟨p1, _, p3⟩ := pieces hok (hb b1 List.mem_cons_self) (fun c h => (hc1 c (hcc c h)).1) h5
        constructor
        · rintro ⟨b, hb', hq, hi⟩
          simp only [List.mem_append, List.mem_cons] at hb' ⊢
          rcases hb' with (hb' | hb') | hb'
          · exact ⟨b, Or.inl hb', hq, hi⟩
          · have hp := p1 b hb'
            exact ⟨b1, Or.inr (Or.inl rfl), by rw [← hp.same.1]; exact hq, hp.part p hi⟩
          · exact ⟨b, Or.inr (Or.inr hb'), hq, hi⟩
        · rintro ⟨b, hb', hq, hi⟩
          simp only [List.mem_append, List.mem_cons] at hb' ⊢
          rcases hb' with hb' | rfl | hb'
          · exact ⟨b, Or.inl (Or.inl hb'), hq, hi⟩
          · rcases p3 (fun c h => hc1 c (hcc c h)) p hi with h' | ⟨x, hx, h'⟩
            · exact ⟨b2, Or.inr hm, hQ b b2 h4 hq, h'⟩
            · exact ⟨x, Or.inl (Or.inr hx), by rw [(p1 x hx).same.1]; exact hq, h'⟩
          · exact ⟨b, Or.inr hb', hq, hi⟩
      · rw [e] at hc2 h
        have hm : b2 ∈ rest := by simp [er]
        obtain ⟨s1, s2, _⟩ := mayBite_solid h4
        have hcc := (cuts_of hn h2 h3 ⟨s1, s2⟩ hm).2
        obtain ⟨p1, _, p3⟩ := pieces hok (hbr b2 hm) (fun c h => (hc1 c (hcc c h)).1) h5
        have hb' : ∀ b ∈ b1 :: (l1 ++ new ++ l2), Body env.toEnv b := by
          intro b hb'
          simp only [List.mem_cons, List.mem_append] at hb'
          rcases hb' with rfl | (h | h) | h
          · exact hb b List.mem_cons_self
          · exact hbr b (by simp [er, h])
          · exact (p1 b h).body
          · exact hbr b (by simp [er, h])
        rw [ih _ _ _ hb' hc2 h, er]
        constructor
        · rintro ⟨b, hb', hq, hi⟩
          simp only [List.mem_append, List.mem_cons] at hb' ⊢
          rcases hb' with hb' | rfl | (hb' | hb') | hb'
          · exact ⟨b, Or.inl hb', hq, hi⟩
          · exact ⟨b, by tauto, hq, hi⟩
          · exact ⟨b, by tauto, hq, hi⟩
          · have hp := p1 b hb'
            exact ⟨b2, by tauto, by rw [← hp.same.1]; exact hq, hp.part p hi⟩
          · exact ⟨b, by tauto, hq, hi⟩
        · rintro ⟨b, hb', hq, hi⟩
          simp only [List.mem_append, List.mem_cons] at hb' ⊢
          rcases hb' with hb' | rfl | hb' | rfl | hb'
          · exact ⟨b, Or.inl hb', hq, hi⟩
          · exact ⟨b, by tauto, hq, hi⟩
          · exact ⟨b, by tauto, hq, hi⟩
          · rcases p3 (fun c h => hc1 c (hcc c h)) p hi with h' | ⟨x, hx, h'⟩
            · exact ⟨b1, by tauto, hQ b b1 h4 hq, h'⟩
            · exact ⟨x, by tauto, by rw [(p1 x hx).same.1]; exact hq, h'⟩
          · exact ⟨b, by tauto, hq, hi⟩

/-- Chopping keeps the points of the brushes, of the solid brushes, and of the solid brushes that are not detail. -/
theorem chop_keeps_points {env : ChopEnv K C} (hok : PlanesOk env.toEnv) {frag : Bool} {fuel : Nat}
    {bs out : List (Brush K C)} (hc : ∀ b ∈ bs, Closed env.toEnv b)
    (hcuts : ∀ c ∈ chopCuts env frag fuel bs, SharpCut env.toEnv c.1 c.2) (h : chopBrushes env frag fuel bs = some out)
    (p : Vec K) :
    ((∃ b ∈ out, Inside env.toEnv b p) ↔ ∃ b ∈ bs, Inside env.toEnv b p) ∧
    ((∃ b ∈ out, env.isSolid b.contents = true ∧ Inside env.toEnv b p) ↔
      ∃ b ∈ bs, env.isSolid b.contents = true ∧ Inside env.toEnv b p) ∧
    ((∃ b ∈ out, (env.isSolid b.contents = true ∧ env.isDetail b.contents = false) ∧ Inside env.toEnv b p) ↔
      ∃ b ∈ bs, (env.isSolid b.contents = true ∧ env.isDetail b.contents = false) ∧ Inside env.toEnv b p) := by
  have key := fun Q hQ => run_points hok (frag := frag) Q hQ p fuel [] bs out (fun b hb => closed_body (hc b hb)) hcuts h
  refine ⟨?_, ?_, ?_⟩
  · simpa using key (fun _ => True) fun _ _ _ _ => trivial
  · simpa using key (fun c => env.isSolid c = true) fun a b hm _ => (mayBite_solid hm).1
  · refine key (fun c => env.isSolid c = true ∧ env.isDetail c = false) fun a b hm ha => ⟨(mayBite_solid hm).1, ?_⟩
    by_contra hcon
    have := (mayBite_solid hm).2.2 (by simpa using hcon)
    rw [this] at ha
    exact absurd ha.2 (by simp)

/-! What is left alone -/

theorem run_others {env : ChopEnv K C} {frag : Bool} : ∀ (fuel : Nat) (done todo out : List (Brush K C)),
    chopRun env frag fuel ⟨done, todo⟩ = some out →
    (out.filter fun b => !env.isSolid b.contents || env.noChop b.orig) =
      ((done ++ todo).filter fun b => !env.isSolid b.contents || env.noChop b.orig) ∧
    ∀ x ∈ out, ∃ b ∈ done ++ todo, x.contents = b.contents ∧ x.orig = b.orig := by
  intro fuel
  induction fuel with
  | zero =>
    intro done todo out h
    cases todo with
    | nil =>
      rw [run_nil] at h
      simp only [Option.some.injEq] at h
      subst h
      exact ⟨by simp, fun x hx => ⟨x, by simp [hx], rfl, rfl⟩⟩
    | cons b rest => simp [chopRun] at h
  | succ fuel ih =>
    intro done todo out h
    cases todo with
    | nil =>
      rw [run_nil] at h
      simp only [Option.some.injEq] at h
      subst h
      exact ⟨by simp, fun x hx => ⟨x, by simp [hx], rfl, rfl⟩⟩
    | cons b1 rest =>
      rw [run_cons] at h
      have hgone : ∀ {a : Brush K C} {l : List (Brush K C)}, env.isSolid a.contents = true → env.noChop a.orig = false →
          (∀ x ∈ l, x.contents = a.contents ∧ x.orig = a.orig) →
          (l.filter fun b => !env.isSolid b.contents || env.noChop b.orig) = [] := by
        intro a l h1 h2 hl
        rw [List.filter_eq_nil_iff]
        intro x hx
        rw [(hl x hx).1, (hl x hx).2, h1, h2]
        simp
      rcases step_spec (env := env) (frag := frag) (done := done) (rest := rest) (b1 := b1) with
        ⟨_, e⟩ | ⟨hn, b2, hm, h2, h3, h4, sub, h5, e⟩ | ⟨hn, l1, b2, l2, new, er, h2, h3, h4, h5, e⟩
      · rw [e] at h
        have := ih _ _ _ h
        simpa using this
      · rw [e] at h
        obtain ⟨i1, i2⟩ := ih _ _ _ h
        obtain ⟨s1, s2, _⟩ := mayBite_solid h4
        have hs := subtract_same h5
        constructor
        · rw [i1]
          simp only [List.filter_append, List.filter_cons]
          rw [hgone s2 hn hs, s2, hn]
          simp
        · intro x hx
          obtain ⟨b, hb, e⟩ := i2 x hx
          simp only [List.mem_append] at hb
          rcases hb with (hb | hb) | hb
          · exact ⟨b, by simp [hb], e⟩
          · exact ⟨b1, by simp, e.1.trans (hs b hb).1, e.2.trans (hs b hb).2⟩
          · exact ⟨b, by simp [hb], e⟩
      · rw [e] at h
        obtain ⟨i1, i2⟩ := ih _ _ _ h
        obtain ⟨s1, s2, _⟩ := mayBite_solid h4
        have hs := subtract_same h5
        constructor
        · rw [i1, er]
          simp only [List.filter_append, List.filter_cons]
          rw [hgone s2 h2 hs, s2, h2]
          simp
        · intro x hx
          obtain ⟨b, hb, eb⟩ := i2 x hx
          rw [er]
          simp only [List.mem_append, List.mem_cons] at hb
          rcases hb with hb | rfl | (hb | hb) | hb
          · exact ⟨b, by simp [hb], eb⟩
          · exact ⟨b, by simp, eb⟩
          · exact ⟨b, by simp [hb], eb⟩
          · exact ⟨b2, by simp, eb.1.trans (hs b hb).1, eb.2.trans (hs b hb).2⟩
          · exact ⟨b, by simp [hb], eb⟩

/-- Brushes that are not solid or must not be chopped stay as they are and in their order. Every brush of the result has
the contents and the origin of a brush of the input. -/
theorem chop_leaves_others {env : ChopEnv K C} {frag : Bool} {fuel : Nat} {bs out : List (Brush K C)}
    (h : chopBrushes env frag fuel bs = some out) :
    (out.filter fun b => !env.isSolid b.contents || env.noChop b.orig) =
      (bs.filter fun b => !env.isSolid b.contents || env.noChop b.orig) ∧
    ∀ x ∈ out, ∃ b ∈ bs, x.contents = b.contents ∧ x.orig = b.orig := by
  have := run_others fuel [] bs out h
  simpa using this

/-! Fragments -/

/-- The list does not get longer. -/
def NoLonger (n : Nat) : Act K C → Prop
  | .gone1 => True
  | .cut1 sub => sub.length ≤ 1
  | .after rest => rest.length ≤ n

theorem scan_count {env : ChopEnv K C} {b1 : Brush K C} : ∀ (l pre : List (Brush K C)) (a : Act K C),
    scan env false b1 pre l = some a → NoLonger (pre.length + l.length) a := by
  intro l
  induction l with
  | nil => intro pre a h; simp [scan] at h
  | cons b2 l ih =>
    intro pre a h
    have skip : scan env false b1 (pre ++ [b2]) l = some a → NoLonger (pre.length + (b2 :: l).length) a := by
      intro h
      have := ih _ _ h
      cases a with
      | gone1 => trivial
      | cut1 sub => exact this
      | after rest =>
        simp only [NoLonger, List.length_append, List.length_cons, List.length_nil] at this ⊢
        omega
    unfold scan at h
    by_cases hn : env.noChop b2.orig = true
    · rw [if_pos hn] at h; exact skip h
    rw [if_neg hn] at h
    by_cases hd : disjointTest b1 b2 = true
    · rw [if_pos hd] at h; exact skip h
    rw [if_neg hd] at h
    cases h1 : bite env b1 b2 with
    | missed => rw [h1] at h; exact skip h
    | swallowed =>
      rw [h1] at h
      cases h
      trivial
    | may_not =>
      rw [h1] at h
      cases h2 : bite env b2 b1 with
      | missed => rw [h2] at h; exact skip h
      | may_not => rw [h2] at h; exact skip h
      | swallowed =>
        rw [h2] at h
        cases h
        simp [NoLonger]
      | parts sub2 =>
        rw [h2] at h
        simp only [Bool.not_false, Bool.true_and, decide_eq_true_eq] at h
        by_cases hf : sub2.length > 1
        · rw [if_pos hf] at h; exact skip h
        · rw [if_neg hf] at h
          cases h
          simp only [NoLonger, List.length_append, List.length_cons]
          omega
    | parts sub =>
      rw [h1] at h
      cases h2 : bite env b2 b1 with
      | missed => rw [h2] at h; exact skip h
      | may_not =>
        rw [h2] at h
        simp only [Bool.not_false, Bool.true_and, decide_eq_true_eq] at h
        by_cases hf : sub.length > 1
        · rw [if_pos hf] at h; exact skip h
        · rw [if_neg hf] at h
          cases h
          simp only [NoLonger]
          omega
      | swallowed =>
        rw [h2] at h
        cases h
        simp [NoLonger]
      | parts sub2 =>
        rw [h2] at h
        simp only [Bool.not_false, Bool.true_and, Bool.and_eq_true, decide_eq_true_eq] at h
        by_cases hf : sub.length > 1 ∧ sub2.length > 1
        · rw [if_pos hf] at h; exact skip h
        · rw [if_neg hf] at h
          by_cases hlt : sub.length < sub2.length
          · rw [if_pos hlt] at h
            cases h
            simp only [NoLonger]
            omega
          · rw [if_neg hlt] at h
            cases h
            simp only [NoLonger, List.length_append, List.length_cons]
            omega

/-- When fragmentation is not allowed, chopping does not make the list longer. -/
theorem chop_no_fragments {env : ChopEnv K C} {fuel : Nat} {bs out : List (Brush K C)}
    (h : chopBrushes env false fuel bs = some out) : out.length ≤ bs.length := by
  have key : ∀ (fuel : Nat) (done todo out : List (Brush K C)), chopRun env false fuel ⟨done, todo⟩ = some out →
      out.length ≤ done.length + todo.length := by
    intro fuel
    induction fuel with
    | zero =>
      intro done todo out h
      cases todo with
      | nil =>
        rw [run_nil] at h
        simp only [Option.some.injEq] at h
        simp [h]
      | cons b rest => simp [chopRun] at h
    | succ fuel ih =>
      intro done todo out h
      cases todo with
      | nil =>
        rw [run_nil] at h
        simp only [Option.some.injEq] at h
        simp [h]
      | cons b1 rest =>
        rw [run_cons] at h
        unfold chopStep at h
        simp only at h
        by_cases hn : env.noChop b1.orig = true
        · rw [if_pos hn] at h
          have := ih _ _ _ h
          simp only [List.length_append, List.length_cons, List.length_nil] at this ⊢
          omega
        rw [if_neg hn] at h
        cases hs : scan env false b1 [] rest with
        | none =>
          rw [hs] at h
          have := ih _ _ _ h
          simp only [List.length_append, List.length_cons, List.length_nil] at this ⊢
          omega
        | some a =>
          have hc := scan_count rest [] a hs
          simp only [List.length_nil, Nat.zero_add] at hc
          rw [hs] at h
          cases a with
          | gone1 =>
            have := ih _ _ _ h
            simp only [List.length_cons] at this ⊢
            omega
          | cut1 sub =>
            have hc : sub.length ≤ 1 := hc
            have := ih _ _ _ h
            simp only [List.length_append, List.length_cons] at this ⊢
            omega
          | after r =>
            have hc : r.length ≤ rest.length := hc
            have := ih _ _ _ h
            simp only [List.length_cons] at this ⊢
            omega
  have := key fuel [] bs out h
  simpa using this

/-! Overlaps -/

/-- The first brush has not been cut, both take part: they do not overlap. -/
def Clear (env : ChopEnv K C) (x y : Brush K C) : Prop :=
  Takes env x → Takes env y → Whole x → ¬ ∃ p, Within env.toEnv x p ∧ Within env.toEnv y p

theorem clear_part {env : ChopEnv K C} (hok : PlanesOk env.toEnv) {sides : List (Side K)} {x y z : Brush K C}
    (h : Clear env x y) (hp : Piece env.toEnv sides y z) : Clear env x z := by
  rintro hx hz hw ⟨p, h1, h2⟩
  refine h hx ?_ hw ⟨p, h1, within_part hok hp.part h2⟩
  unfold Takes at hz ⊢
  rw [← hp.same.1, ← hp.same.2]
  exact hz

theorem idle_clear {env : ChopEnv K C} (hok : PlanesOk env.toEnv) {b1 b2 : Brush K C} {rest : List (Brush K C)}
    (h1 : Body env.toEnv b1) (h2 : Body env.toEnv b2) (hm : b2 ∈ rest)
    (hc : ∀ c ∈ stepCuts env (b1 :: rest), SharpCut env.toEnv c.1 c.2) (h : Unbitten env true b1 b2) : Clear env b1 b2 := by
  rintro t1 t2 _ ⟨p, p1, p2⟩
  rcases h with h | h | ⟨hn, hd, h⟩ | ⟨ha, hb⟩ | h
  · rw [t2.2] at h; cases h
  · exact disjoint_none hok h1 h2 h p1 p2
  · obtain ⟨c1, c2⟩ := cuts_of t1.2 hn hd ⟨t1.1, t2.1⟩ hm
    rcases h with ⟨_, h⟩ | ⟨_, h⟩
    · obtain ⟨s, hs, hle⟩ := carve_none hok _ _ _ h1 (fun c h' => hc c (c1 c h')) h p p1
      have := p2 s hs
      linarith
    · obtain ⟨s, hs, hle⟩ := carve_none hok _ _ _ h2 (fun c h' => hc c (c2 c h')) h p p2
      have := p1 s hs
      linarith
  · unfold mayBite at ha hb
    rw [t1.1, t2.1] at ha hb
    cases h1 : env.isDetail b1.contents <;> cases h2 : env.isDetail b2.contents <;> simp [h1, h2] at ha hb
  · cases h

theorem run_clear {env : ChopEnv K C} (hok : PlanesOk env.toEnv) : ∀ (fuel : Nat) (done todo out : List (Brush K C)),
    (∀ b ∈ todo, Body env.toEnv b) → (∀ c ∈ runCuts env true fuel ⟨done, todo⟩, SharpCut env.toEnv c.1 c.2) →
    done.Pairwise (Clear env) → (∀ x ∈ done, ∀ y ∈ todo, Clear env x y) →
    chopRun env true fuel ⟨done, todo⟩ = some out → out.Pairwise (Clear env) := by
  intro fuel
  induction fuel with
  | zero =>
    intro done todo out _ _ hp _ h
    cases todo with
    | nil =>
      rw [run_nil] at h
      simp only [Option.some.injEq] at h
      rw [← h]; exact hp
    | cons b rest => simp [chopRun] at h
  | succ fuel ih =>
    intro done todo out hb hc hp hq h
    cases todo with
    | nil =>
      rw [run_nil] at h
      simp only [Option.some.injEq] at h
      rw [← h]; exact hp
    | cons b1 rest =>
      rw [run_cons] at h
      rw [cuts_cons] at hc
      have hc1 := fun c h => hc c (List.mem_append_left _ h)
      have hc2 := fun c h => hc c (List.mem_append_right _ h)
      have hbr : ∀ b ∈ rest, Body env.toEnv b := fun b h => hb b (List.mem_cons_of_mem _ h)
      have hb1 := hb b1 List.mem_cons_self
      rcases step_spec (env := env) (frag := true) (done := done) (rest := rest) (b1 := b1) with
        ⟨hi, e⟩ | ⟨hn, b2, hm, h2, h3, h4, sub, h5, e⟩ | ⟨hn, l1, b2, l2, new, er, h2, h3, h4, h5, e⟩
      · rw [e] at hc2 h
        refine ih _ _ _ hbr hc2 ?_ ?_ h
        · rw [List.pairwise_append]
          refine ⟨hp, by simp, ?_⟩
          intro x hx y hy
          rw [List.mem_singleton] at hy
          rw [hy]
          exact hq x hx b1 List.mem_cons_self
        · intro x hx y hy
          rcases List.mem_append.1 hx with hx | hx
          · exact hq x hx y (List.mem_cons_of_mem _ hy)
          · rw [List.mem_singleton] at hx
            subst hx
            rcases hi with hi | hi
            · intro t1 _ _
              rw [t1.2] at hi; cases hi
            · exact idle_clear hok hb1 (hbr y hy) hy hc1 (hi y hy)
      · rw [e] at hc2 h
        obtain ⟨s1, s2, _⟩ := mayBite_solid h4
        have hcc := (cuts_of hn h2 h3 ⟨s2, s1⟩ hm).1
        obtain ⟨p1, _, _⟩ := pieces hok hb1 (fun c h => (hc1 c (hcc c h)).1) h5
        have hfrag : ∀ x ∈ sub, ∀ y, Clear env x y := by
          intro x hx y _ _ hw
          obtain ⟨t, ht, ho, _⟩ := (p1 x hx).opposite
          rw [hw t ht] at ho
          cases ho
        refine ih _ _ _ hbr hc2 ?_ ?_ h
        · rw [List.pairwise_append]
          refine ⟨hp, ?_, ?_⟩
          · exact List.pairwise_of_forall_mem_list fun x hx y _ => hfrag x hx y
          · intro x hx y hy
            exact clear_part hok (hq x hx b1 List.mem_cons_self) (p1 y hy)
        · intro x hx y hy
          rcases List.mem_append.1 hx with hx | hx
          · exact hq x hx y (List.mem_cons_of_mem _ hy)
          · exact hfrag x hx y
      · rw [e] at hc2 h
        have hm : b2 ∈ rest := by simp [er]
        obtain ⟨s1, s2, _⟩ := mayBite_solid h4
        have hcc := (cuts_of hn h2 h3 ⟨s1, s2⟩ hm).2
        obtain ⟨p1, _, _⟩ := pieces hok (hbr b2 hm) (fun c h => (hc1 c (hcc c h)).1) h5
        refine ih _ _ _ ?_ hc2 hp ?_ h
        · intro b hb'
          simp only [List.mem_cons, List.mem_append] at hb'
          rcases hb' with rfl | (h | h) | h
          · exact hb1
          · exact hbr b (by simp [er, h])
          · exact (p1 b h).body
          · exact hbr b (by simp [er, h])
        · intro x hx y hy
          simp only [List.mem_cons, List.mem_append] at hy
          rcases hy with rfl | (h | h) | h
          · exact hq x hx y List.mem_cons_self
          · exact hq x hx y (by simp [er, h])
          · exact clear_part hok (hq x hx b2 (by simp [er])) (p1 y h)
          · exact hq x hx y (by simp [er, h])

/-- With fragmentation allowed, a solid brush that was left whole does not overlap any later brush of the result. In
particular no two whole brushes overlap. What is missing: pieces may overlap later brushes, see
`chopped_brushes_overlap`. -/
theorem chop_no_overlap_partial {env : ChopEnv K C} (hok : PlanesOk env.toEnv) {fuel : Nat} {bs out : List (Brush K C)}
    (hc : ∀ b ∈ bs, Closed env.toEnv b) (hcuts : ∀ c ∈ chopCuts env true fuel bs, SharpCut env.toEnv c.1 c.2)
    (h : chopBrushes env true fuel bs = some out) :
    out.Pairwise fun x y => Takes env x → Takes env y → Whole x →
      ¬ ∃ p, Within env.toEnv x p ∧ Within env.toEnv y p :=
  run_clear hok fuel [] bs out (fun b hb => closed_body (hc b hb)) hcuts List.Pairwise.nil (by simp) h

end Verif.BrushBsp
