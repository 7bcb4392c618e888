import Verif.BrushBsp.Cut

/-! How the fragments of the brushes follow a point down the tree. -/

namespace Verif.BrushBsp

open Geom Geom.Spec Spec

set_option linter.unusedSectionVars false

variable {K C : Type} [Field K] [LinearOrder K] [IsStrictOrderedRing K]

/-- A fragment of the brush `B` on the way of the point `p`. -/
def Tracks (env : Env K C) (p : Vec K) (B b : Brush K C) : Prop :=
  ∃ T, Solid env T b.sides ∧ (∀ q, T q → Inside env B q) ∧ b.contents = B.contents ∧
    (Inside env B p → T p ∧ InBox b.bounds p) ∧ ∀ s ∈ b.sides, s.onnode = true → (env.planes s.planenum).distTo p ≤ 0

/-- The fragments of the brushes, in order; a brush is only dropped if the point is outside. -/
inductive Follow (env : Env K C) (p : Vec K) : List (Brush K C) → List (Brush K C) → Prop where
  | nil : Follow env p [] []
  | keep {B b l bs} : Tracks env p B b → Follow env p l bs → Follow env p (B :: l) (b :: bs)
  | drop {B l bs} : ¬ Inside env B p → Follow env p l bs → Follow env p (B :: l) bs

theorem facing_cases {n : Nat} : ∀ {l : List (Side K)} {s : PSide}, facingTest n l = some s →
    (s = ⟨false, true, true⟩ ∧ ∃ a ∈ l, a.planenum = n) ∨ (s = ⟨true, false, true⟩ ∧ ∃ a ∈ l, a.planenum = flipNum n) := by
  intro l
  induction l with
  | nil => intro s h; cases h
  | cons a l ih =>
    intro s h
    unfold facingTest at h
    split at h
    · rename_i e
      cases h
      exact Or.inl ⟨rfl, a, by simp, e⟩
    · split at h
      · rename_i e
        cases h
        exact Or.inr ⟨rfl, a, by simp, e⟩
      · rcases ih h with ⟨e, x, hx, h'⟩ | ⟨e, x, hx, h'⟩
        · exact Or.inl ⟨e, x, by simp [hx], h'⟩
        · exact Or.inr ⟨e, x, by simp [hx], h'⟩

/-- A point of the box at a distance from the plane makes the box be on its side. -/
theorem box_test {b : Bounds K} {pl : Plane K} {p : Vec K} (hu : UnitNormal pl)
    (ha : pl.normal.x ≠ -1 ∧ pl.normal.y ≠ -1 ∧ pl.normal.z ≠ -1) (hp : InBox b p) :
    (1 / 10 < pl.distTo p → (boxTest b pl).front = true) ∧ (pl.distTo p < -(1 / 10) → (boxTest b pl).back = true) := by
  have hps : (psEps : K) < 1 / 10 := by unfold psEps; norm_num
  have hps0 : (0 : K) < psEps := by unfold psEps; norm_num
  obtain ⟨⟨x0, x1⟩, ⟨y0, y1⟩, z0, z1⟩ := hp
  have hun : pl.normal.x * pl.normal.x + pl.normal.y * pl.normal.y + pl.normal.z * pl.normal.z = 1 := hu
  by_cases hx : pl.normal.x = 1
  · obtain ⟨hy, hz⟩ := axial hun (by rw [hx]; ring)
    have hax : axis pl = some 0 := by unfold axis; rw [if_pos (Or.inl hx)]
    have hd : pl.distTo p = p.x - pl.dist := by simp only [Plane.distTo, dot, hx, hy, hz]; ring
    simp only [boxTest, hax, coord, hd]
    constructor <;> intro h <;> apply decide_eq_true <;> linarith
  · by_cases hy : pl.normal.y = 1
    · obtain ⟨hx', hz⟩ := axial (a := pl.normal.y) (b := pl.normal.x) (c := pl.normal.z) (by linarith) (by rw [hy]; ring)
      have hax : axis pl = some 1 := by
        unfold axis; rw [if_neg (by rintro (h | h); exact hx h; exact ha.1 h), if_pos (Or.inl hy)]
      have hd : pl.distTo p = p.y - pl.dist := by simp only [Plane.distTo, dot, hx', hy, hz]; ring
      simp only [boxTest, hax, coord, hd]
      constructor <;> intro h <;> apply decide_eq_true <;> linarith
    · by_cases hz : pl.normal.z = 1
      · obtain ⟨hx', hy'⟩ := axial (a := pl.normal.z) (b := pl.normal.x) (c := pl.normal.y) (by linarith) (by rw [hz]; ring)
        have hax : axis pl = some 2 := by
          unfold axis
          rw [if_neg (by rintro (h | h); exact hx h; exact ha.1 h), if_neg (by rintro (h | h); exact hy h; exact ha.2.1 h),
            if_pos (Or.inl hz)]
        have hd : pl.distTo p = p.z - pl.dist := by simp only [Plane.distTo, dot, hx', hy', hz]; ring
        simp only [boxTest, hax, coord, hd]
        constructor <;> intro h <;> apply decide_eq_true <;> linarith
      · have hax : axis pl = none := by
          unfold axis
          rw [if_neg (by rintro (h | h); exact hx h; exact ha.1 h), if_neg (by rintro (h | h); exact hy h; exact ha.2.1 h),
            if_neg (by rintro (h | h); exact hz h; exact ha.2.2 h)]
        have up : ∀ n lo hi v : K, lo ≤ v → v ≤ hi → n * v ≤ n * (if n < 0 then lo else hi) := by
          intro n lo hi v h1 h2
          by_cases hn : n < 0
          · rw [if_pos hn]; exact mul_le_mul_of_nonpos_left h1 (le_of_lt hn)
          · rw [if_neg hn]; exact mul_le_mul_of_nonneg_left h2 (not_lt.1 hn)
        have down : ∀ n lo hi v : K, lo ≤ v → v ≤ hi → n * (if n < 0 then hi else lo) ≤ n * v := by
          intro n lo hi v h1 h2
          by_cases hn : n < 0
          · rw [if_pos hn]; exact mul_le_mul_of_nonpos_left h2 (le_of_lt hn)
          · rw [if_neg hn]; exact mul_le_mul_of_nonneg_left h1 (not_lt.1 hn)
        simp only [boxTest, hax, Plane.distTo, dot]
        constructor <;> intro h
        · have h1 := up pl.normal.x _ _ _ x0 x1
          have h2 := up pl.normal.y _ _ _ y0 y1
          have h3 := up pl.normal.z _ _ _ z0 z1
          apply decide_eq_true
          show psEps ≤ _
          linarith
        · have h1 := down pl.normal.x _ _ _ x0 x1
          have h2 := down pl.normal.y _ _ _ y0 y1
          have h3 := down pl.normal.z _ _ _ z0 z1
          apply decide_eq_true
          linarith

theorem solid_congr {env : Env K C} {T : Vec K → Prop} {sides : List (Side K)} (f : Side K → Side K)
    (hf : ∀ s, (f s).planenum = s.planenum ∧ (f s).w = s.w) (h : Solid env T sides) : Solid env T (sides.map f) where
  conv := h.conv
  inside := by
    intro s hs q hq
    obtain ⟨a, ha, rfl⟩ := List.mem_map.1 hs
    rw [(hf a).1]; exact h.inside a ha q hq
  cover := by
    intro r hr u hu
    obtain ⟨t, ht, s, hs, hT, hh⟩ := h.cover r hr u hu
    exact ⟨t, ht, f s, List.mem_map_of_mem hs, hT, by rw [(hf s).2]; exact hh⟩
  poly := by
    intro s hs
    obtain ⟨a, ha, rfl⟩ := List.mem_map.1 hs
    rw [(hf a).2]; exact h.poly a ha
  own := by
    intro s hs
    obtain ⟨a, ha, rfl⟩ := List.mem_map.1 hs
    rw [(hf a).1, (hf a).2]; exact h.own a ha
  verts := by
    intro s hs
    obtain ⟨a, ha, rfl⟩ := List.mem_map.1 hs
    rw [(hf a).2]; exact h.verts a ha
  core := by
    obtain ⟨c, hc, hcs⟩ := h.core
    refine ⟨c, hc, fun s hs => ?_⟩
    obtain ⟨a, ha, rfl⟩ := List.mem_map.1 hs
    rw [(hf a).1]; exact hcs a ha
  world := h.world

/-- A brush with a side on the plane, marked. -/
theorem mark_tracks {env : Env K C} (hok : PlanesOk env) {p : Vec K} {B b : Brush K C} {n : Nat} (hn : n % 2 = 0)
    (h : Tracks env p B b) (hd : (∃ a ∈ b.sides, a.planenum = n) ∧ (env.planes n).distTo p ≤ 0 ∨
      (∃ a ∈ b.sides, a.planenum = flipNum n) ∧ 0 ≤ (env.planes n).distTo p) : Tracks env p B (markOnnode n b) := by
  obtain ⟨T, hs, hB, hc, hp, ho⟩ := h
  refine ⟨T, ?_, hB, hc, hp, ?_⟩
  · apply solid_congr _ _ hs
    intro s
    split <;> exact ⟨rfl, rfl⟩
  · intro s hs' hon
    simp only [markOnnode, List.mem_map] at hs'
    obtain ⟨a, ha, rfl⟩ := hs'
    split at hon
    · rename_i hpos
      rw [if_pos hpos]
      simp only
      have hcase : a.planenum = n ∨ a.planenum = flipNum n := by
        unfold positive at hpos
        unfold flipNum
        rw [if_pos hn]
        omega
      obtain ⟨c, hTc, hcs⟩ := hs.core
      rcases hcase with e | e <;> rw [e]
      · rcases hd with ⟨_, hd⟩ | ⟨⟨x, hx, ex⟩, _⟩
        · exact hd
        · exfalso
          have h1 := hcs a ha
          have h2 := hcs x hx
          rw [e] at h1
          rw [ex, hok.flip] at h2
          linarith
      · rcases hd with ⟨⟨x, hx, ex⟩, _⟩ | ⟨_, hd⟩
        · exfalso
          have h1 := hcs a ha
          have h2 := hcs x hx
          rw [e, hok.flip] at h1
          rw [ex] at h2
          linarith
        · rw [hok.flip]; linarith
    · rename_i hpos
      rw [if_neg hpos]
      exact ho a ha hon

/-- What a brush sends to the side of the point. -/
theorem distribute_tracks {env : Env K C} (hok : PlanesOk env) {p : Vec K} {B b : Brush K C} {n : Nat} (hn : n % 2 = 0)
    (h : Tracks env p B b) (hd : 1 / 10 < |(env.planes n).distTo p|)
    (hcut : testBrush env n b = ⟨true, true, false⟩ → CleanCut env n b) :
    let out := if 0 ≤ (env.planes n).distTo p then (distribute env n (testBrush env n b) b).1
      else (distribute env n (testBrush env n b) b).2
    (∃ b', out = [b'] ∧ Tracks env p B b') ∨ (out = [] ∧ ¬ Inside env B p) := by
  have ten : (0 : K) < 1 / 10 := by norm_num
  have hside : (0 ≤ (env.planes n).distTo p ∧ 1 / 10 < (env.planes n).distTo p) ∨
      (¬ 0 ≤ (env.planes n).distTo p ∧ (env.planes n).distTo p < -(1 / 10)) := by
    rcases lt_abs.1 hd with h | h
    · exact Or.inl ⟨by linarith, h⟩
    · exact Or.inr ⟨by linarith, by linarith⟩
  simp only
  by_cases hboth : testBrush env n b = ⟨true, true, false⟩
  · obtain ⟨T, hs, hB, hc, hp, ho⟩ := h
    unfold distribute
    rw [if_pos hboth]
    simp only
    -- a point of the brush at a distance has a vertex at that distance
    have far : ∀ pl : Plane K, Inside env B p → ∃ s ∈ b.sides, ∃ v ∈ s.w, pl.distTo p ≤ pl.distTo v := by
      intro pl hin
      obtain ⟨q, _, dq, _, s, hs', hh⟩ := solid_hull hs pl (hp hin).1 pl.normal
      by_contra hcon
      push Not at hcon
      obtain ⟨v, hv, e⟩ := hh pl.normal
      have h1 := hcon s hs' v hv
      simp only [Plane.distTo, dot] at *
      linarith
    rcases split_cases (hcut hboth) with ⟨hall, e⟩ | ⟨hall, e⟩ | ⟨hF, hBk, hnn, m, hm, e⟩ <;> rw [e]
    · rcases hside with ⟨h0, h1⟩ | ⟨h0, h1⟩
      · rw [if_pos h0]
        right
        refine ⟨rfl, fun hin => ?_⟩
        obtain ⟨s, hs', v, hv, hle⟩ := far (env.planes n) hin
        have := hall s hs' v hv
        linarith
      · rw [if_neg h0]
        exact Or.inl ⟨b, rfl, T, hs, hB, hc, hp, ho⟩
    · rcases hside with ⟨h0, h1⟩ | ⟨h0, h1⟩
      · rw [if_pos h0]
        exact Or.inl ⟨b, rfl, T, hs, hB, hc, hp, ho⟩
      · rw [if_neg h0]
        right
        refine ⟨rfl, fun hin => ?_⟩
        obtain ⟨s, hs', v, hv, hle⟩ := far (env.planes n).neg hin
        have := hall s hs' v hv
        rw [neg_distTo, neg_distTo] at hle
        linarith
    · rcases hside with ⟨h0, h1⟩ | ⟨h0, h1⟩
      · rw [if_pos h0]
        left
        obtain ⟨s1, s2⟩ := front_half hok hs hnn hm hF
        refine ⟨_, rfl, _, s1, fun q hq => hB q hq.1, hc, ?_, ?_⟩
        · intro hin
          exact ⟨⟨(hp hin).1, h0⟩, s2 p (hp hin).1 (by linarith)⟩
        · intro s hs' hon
          rcases List.mem_append.1 hs' with hs' | hs'
          · obtain ⟨a, ha, ea, eo, _⟩ := (front_sides b.sides).1 s hs'
            rw [ea]; exact ho a ha (by rw [← eo]; exact hon)
          · rw [List.mem_singleton] at hs'
            subst hs'
            simp only [cutSide]
            rw [hok.flip]; linarith
      · rw [if_neg h0]
        left
        obtain ⟨s1, s2⟩ := back_half hok hs hnn hm hBk
        refine ⟨_, rfl, _, s1, fun q hq => hB q hq.1, hc, ?_, ?_⟩
        · intro hin
          exact ⟨⟨(hp hin).1, by rw [neg_distTo]; linarith⟩, s2 p (hp hin).1 (by linarith)⟩
        · intro s hs' hon
          rcases List.mem_append.1 hs' with hs' | hs'
          · obtain ⟨a, ha, ea, eo, _⟩ := (back_sides b.sides).1 s hs'
            rw [ea]; exact ho a ha (by rw [← eo]; exact hon)
          · rw [List.mem_singleton] at hs'
            subst hs'
            simp only [cutSide]
            linarith
  · unfold distribute
    rw [if_neg hboth]
    unfold testBrush at hboth ⊢
    cases hft : facingTest n b.sides with
    | some s =>
      simp only
      rcases facing_cases hft with ⟨rfl, a, ha, ea⟩ | ⟨rfl, a, ha, ea⟩
      · simp only [if_true, Bool.false_eq_true, if_false]
        rcases hside with ⟨h0, h1⟩ | ⟨h0, h1⟩
        · rw [if_pos h0]
          right
          refine ⟨rfl, fun hin => ?_⟩
          obtain ⟨T, hs, hB, hc, hp, ho⟩ := h
          have := hs.inside a ha p (hp hin).1
          rw [ea] at this
          linarith
        · rw [if_neg h0]
          exact Or.inl ⟨_, rfl, mark_tracks hok hn h (Or.inl ⟨⟨a, ha, ea⟩, by linarith⟩)⟩
      · simp only [if_true]
        rcases hside with ⟨h0, h1⟩ | ⟨h0, h1⟩
        · rw [if_pos h0]
          exact Or.inl ⟨_, rfl, mark_tracks hok hn h (Or.inr ⟨⟨a, ha, ea⟩, h0⟩)⟩
        · rw [if_neg h0]
          right
          refine ⟨rfl, fun hin => ?_⟩
          obtain ⟨T, hs, hB, hc, hp, ho⟩ := h
          have := hs.inside a ha p (hp hin).1
          rw [ea, hok.flip] at this
          linarith
    | none =>
      rw [hft] at hboth
      simp only at hboth ⊢
      have hbf := box_facing b.bounds (env.planes n)
      have hbt : Inside env B p → (1 / 10 < (env.planes n).distTo p → (boxTest b.bounds (env.planes n)).front = true) ∧
          ((env.planes n).distTo p < -(1 / 10) → (boxTest b.bounds (env.planes n)).back = true) := by
        intro hin
        obtain ⟨T, hs, hB, hc, hp, ho⟩ := h
        exact box_test (hok.unit n) (hok.axial n hn) (hp hin).2
      rcases hbx : boxTest b.bounds (env.planes n) with ⟨f, g, fc⟩
      rw [hbx] at hbf hbt hboth
      simp only at hbf hbt
      subst hbf
      simp only [Bool.false_eq_true, if_false]
      cases f <;> cases g <;> simp only [Bool.false_eq_true, if_false, if_true, ite_self]
      · right
        refine ⟨trivial, fun hin => ?_⟩
        obtain ⟨t1, t2⟩ := hbt hin
        rcases hside with ⟨_, h1⟩ | ⟨_, h1⟩
        · exact absurd (t1 h1) (by simp)
        · exact absurd (t2 h1) (by simp)
      · rcases hside with ⟨h0, h1⟩ | ⟨h0, h1⟩
        · rw [if_pos h0]
          exact Or.inr ⟨rfl, fun hin => absurd ((hbt hin).1 h1) (by simp)⟩
        · rw [if_neg h0]
          exact Or.inl ⟨_, rfl, h⟩
      · rcases hside with ⟨h0, h1⟩ | ⟨h0, h1⟩
        · rw [if_pos h0]
          exact Or.inl ⟨_, rfl, h⟩
        · rw [if_neg h0]
          exact Or.inr ⟨rfl, fun hin => absurd ((hbt hin).2 h1) (by simp)⟩
      · exact absurd rfl hboth

/-- One node. -/
theorem follow_step {env : Env K C} (hok : PlanesOk env) {p : Vec K} {n : Nat} (hn : n % 2 = 0)
    (hd : 1 / 10 < |(env.planes n).distTo p|) {l bs : List (Brush K C)} (h : Follow env p l bs)
    (hcut : ∀ b ∈ bs, testBrush env n b = ⟨true, true, false⟩ → CleanCut env n b) :
    Follow env p l (if 0 ≤ (env.planes n).distTo p then (splitBrushList env n (bs.map (testBrush env n)) bs).1
      else (splitBrushList env n (bs.map (testBrush env n)) bs).2) := by
  induction h with
  | nil => simp only [splitBrushList, List.map_nil, List.zip_nil_right, List.flatMap_nil, ite_self]; exact .nil
  | @keep B b l bs hb _ ih =>
    have ih' := ih (fun x hx => hcut x (List.mem_cons_of_mem _ hx))
    have hstep := distribute_tracks hok hn hb hd (hcut b List.mem_cons_self)
    simp only at hstep
    simp only [splitBrushList, List.map_cons, List.zip_cons_cons, List.flatMap_cons] at ih' ⊢
    split
    · rename_i h0
      rw [if_pos h0] at ih' hstep
      rcases hstep with ⟨b', e, hb'⟩ | ⟨e, hin⟩
      · rw [e]; exact .keep hb' ih'
      · rw [e]; exact .drop hin ih'
    · rename_i h0
      rw [if_neg h0] at ih' hstep
      rcases hstep with ⟨b', e, hb'⟩ | ⟨e, hin⟩
      · rw [e]; exact .keep hb' ih'
      · rw [e]; exact .drop hin ih'
  | drop hin _ ih => exact .drop hin (ih hcut)

/-- The way down to the leaf of the point. -/
theorem follow_tree {env : Env K C} (hok : PlanesOk env) {p : Vec K} : ∀ (fuel : Nat) (parents : List Nat)
    (vol : Option (Brush K C)) (nb : Bounds K) (l bs : List (Brush K C)) (t : BTree K C),
    (∀ n ∈ openPlanes bs, n ∉ parents) → Follow env p l bs →
    buildTree env fuel parents vol nb bs = some (.ok t) →
    (∀ n ∈ (leafAt env.planes p t).1, 1 / 10 < |(env.planes n).distTo p|) →
    (∀ x ∈ cutsAt env p fuel parents vol nb bs, CleanCut env x.1 x.2) →
    Follow env p l (leafAt env.planes p t).2.2 ∧
      (leafAt env.planes p t).2.1 = (leafAt env.planes p t).2.2.foldl (fun c b => env.combine c b.contents) env.empty := by
  intro fuel
  induction fuel with
  | zero => intro _ _ _ _ _ _ _ _ h; simp [buildTree] at h
  | succ fuel ih =>
    intro parents vol nb l bs t hpar hfol hbt hoff hcut
    obtain ⟨o, hsel, hcho⟩ := selectSplit_ok (env := env) (vol := vol) (nb := nb) hpar
    unfold buildTree at hbt
    unfold cutsAt at hcut
    rw [hsel] at hbt hcut
    cases o with
    | none =>
      simp only [Option.some.injEq, Outcome.ok.injEq] at hbt
      subst hbt
      exact ⟨hfol, rfl⟩
    | some c =>
      obtain ⟨⟨bb, hbb, ss, hss, hopen, hpos⟩, hsides⟩ := hcho c rfl
      simp only at hbt hcut
      have hn : c.planenum % 2 = 0 := by rw [← hpos]; unfold positive; omega
      have hpp : positive c.planenum = c.planenum := by rw [← hpos, positive_positive]
      have hcpar : ∀ {bs' : List (Brush K C)}, openPlanes bs' ⊆ (openPlanes bs).erase c.planenum →
          ∀ n ∈ openPlanes bs', n ∉ c.planenum :: parents := by
        intro bs' hh n hn' hmem
        obtain ⟨h1, h2⟩ := Finset.mem_erase.1 (hh hn')
        rcases List.mem_cons.1 hmem with rfl | hmem
        · exact h1 rfl
        · exact hpar n h2 hmem
      have hlo := list_open (env := env) (n := c.planenum) hpp bs
      have hcl : ∀ b ∈ bs, testBrush env c.planenum b = ⟨true, true, false⟩ → CleanCut env c.planenum b := by
        intro b hb hb'
        apply hcut (c.planenum, b)
        apply List.mem_append_left
        exact List.mem_map.2 ⟨b, List.mem_filter.2 ⟨hb, by simpa using hb'⟩, rfl⟩
      split at hbt <;> try (simp only [Option.some.injEq, reduceCtorEq] at hbt)
      rename_i f g hf hg
      simp only [Outcome.ok.injEq] at hbt
      subst hbt
      simp only [leafAt] at hoff ⊢
      have hst := follow_step hok hn (hoff c.planenum (by simp)) hfol hcl
      rw [← hsides] at hst
      by_cases h0 : 0 ≤ (env.planes c.planenum).distTo p
      · rw [if_pos h0] at hst hoff hcut ⊢
        refine ih _ _ _ _ _ f (hcpar ?_) hst hf (fun n hn' => hoff n (List.mem_cons_of_mem _ hn'))
          (fun x hx => hcut x (List.mem_append_right _ hx))
        rw [hsides]
        exact hlo.1
      · rw [if_neg h0] at hst hoff hcut ⊢
        refine ih _ _ _ _ _ g (hcpar ?_) hst hg (fun n hn' => hoff n (List.mem_cons_of_mem _ hn'))
          (fun x hx => hcut x (List.mem_append_right _ hx))
        rw [hsides]
        exact hlo.2

/-- A closed brush is a solid. -/
theorem closed_solid {env : Env K C} {b : Brush K C} (h : Closed env b) : Solid env (Inside env b) b.sides where
  conv := by
    intro x y hx hy t h0 h1 s hs
    rw [distTo_along]
    have h2 := mul_nonpos_of_nonneg_of_nonpos (show 0 ≤ 1 - t by linarith) (hx s hs)
    have h3 := mul_nonpos_of_nonneg_of_nonpos h0 (hy s hs)
    linarith
  inside := fun s hs q hq => hq s hs
  cover := by
    intro r hr u hu
    -- the first plane on the way
    have key : ∀ (l : List (Side K)), (∀ s ∈ l, (env.planes s.planenum).distTo r ≤ 0) →
        (∀ s ∈ l, dot u (env.planes s.planenum).normal ≤ 0) ∨
        ∃ t, 0 ≤ t ∧ (∀ s ∈ l, (env.planes s.planenum).distTo (go r u t) ≤ 0) ∧
          ∃ s ∈ l, (env.planes s.planenum).distTo (go r u t) = 0 := by
      intro l
      induction l with
      | nil => intro _; left; simp
      | cons a l ih =>
        intro hl
        have ha := hl a List.mem_cons_self
        have hl' := fun s hs => hl s (List.mem_cons_of_mem _ hs)
        rcases lt_or_ge 0 (dot u (env.planes a.planenum).normal) with hpos | hneg
        · set ta := -(env.planes a.planenum).distTo r / dot u (env.planes a.planenum).normal with hta
          have ta0 : 0 ≤ ta := div_nonneg (by linarith) (le_of_lt hpos)
          have hmul : ta * dot u (env.planes a.planenum).normal = -(env.planes a.planenum).distTo r :=
            div_mul_cancel₀ _ (ne_of_gt hpos)
          rcases ih hl' with hall | ⟨t, ht, hall, s, hs, e⟩
          · right
            refine ⟨ta, ta0, ?_, a, by simp, by rw [dist_go]; linarith⟩
            intro s hs
            rcases List.mem_cons.1 hs with rfl | hs
            · rw [dist_go]; linarith
            · rw [dist_go]
              have := mul_nonpos_of_nonneg_of_nonpos ta0 (hall s hs)
              linarith [hl' s hs]
          · right
            rcases le_total t ta with hle | hle
            · refine ⟨t, ht, ?_, s, by simp [hs], e⟩
              intro s' hs'
              rcases List.mem_cons.1 hs' with rfl | hs'
              · rw [dist_go]
                have := mul_le_mul_of_nonneg_right hle (le_of_lt hpos)
                linarith
              · exact hall s' hs'
            · refine ⟨ta, ta0, ?_, a, by simp, by rw [dist_go]; linarith⟩
              intro s' hs'
              rcases List.mem_cons.1 hs' with rfl | hs'
              · rw [dist_go]; linarith
              · have h1 := hall s' hs'
                have h2 := hl' s' hs'
                rw [dist_go] at h1 ⊢
                rcases le_total 0 (dot u (env.planes s'.planenum).normal) with hq | hq
                · have := mul_le_mul_of_nonneg_right hle hq
                  linarith
                · have := mul_nonpos_of_nonneg_of_nonpos ta0 hq
                  linarith
        · rcases ih hl' with hall | ⟨t, ht, hall, s, hs, e⟩
          · left
            intro s hs
            rcases List.mem_cons.1 hs with rfl | hs
            · exact hneg
            · exact hall s hs
          · right
            refine ⟨t, ht, ?_, s, by simp [hs], e⟩
            intro s' hs'
            rcases List.mem_cons.1 hs' with rfl | hs'
            · rw [dist_go]
              have := mul_nonpos_of_nonneg_of_nonpos ht hneg
              linarith
            · exact hall s' hs'
    rcases key b.sides hr with hall | ⟨t, ht, hall, s, hs, e⟩
    · -- the way leads out of the world
      exfalso
      have hin : ∀ t, 0 ≤ t → Inside env b (go r u t) := by
        intro t ht s hs
        rw [dist_go]
        have := mul_nonpos_of_nonneg_of_nonpos ht (hall s hs)
        linarith [hr s hs]
      set A := 2 * |dot r u| + env.worldextent * env.worldextent + 1 with hA
      have hW := mul_self_nonneg env.worldextent
      have habs := abs_nonneg (dot r u)
      have hA1 : 1 ≤ A := by linarith
      set t := A / dot u u + 1 with ht
      have t0 : 1 ≤ t := by
        have : 0 ≤ A / dot u u := div_nonneg (by linarith) (le_of_lt hu)
        linarith
      have hw := h.world _ (hin t (by linarith))
      have e1 : dot (go r u t) (go r u t) = dot r r + 2 * t * dot r u + t * (t * dot u u) := by
        simp only [dot, go]; ring
      have e2 : t * dot u u = A + dot u u := by
        rw [ht, add_mul, div_mul_cancel₀ _ (ne_of_gt hu)]; ring
      have hr0 : 0 ≤ dot r r := by
        have h1 := mul_self_nonneg r.x; have h2 := mul_self_nonneg r.y; have h3 := mul_self_nonneg r.z
        simp only [dot]; linarith
      have h3 := neg_abs_le (dot r u)
      have h4 : t * (2 * dot r u) ≥ t * (-2 * |dot r u|) := mul_le_mul_of_nonneg_left (by linarith) (by linarith)
      have h5 : t * (env.worldextent * env.worldextent + 1) ≥ 1 * (env.worldextent * env.worldextent + 1) :=
        mul_le_mul_of_nonneg_right t0 (by linarith)
      have h6 : 0 ≤ t * dot u u := mul_nonneg (by linarith) (le_of_lt hu)
      rw [e1, e2, hA] at hw
      have h7 : t * (2 * |dot r u| + env.worldextent * env.worldextent + 1 + dot u u) =
        t * (2 * |dot r u|) + t * (env.worldextent * env.worldextent + 1) + t * dot u u := by ring
      rw [h7] at hw
      have h8 : 2 * t * dot r u = t * (2 * dot r u) := by ring
      have h9 : t * (-2 * |dot r u|) = -(t * (2 * |dot r u|)) := by ring
      linarith
    · obtain ⟨s', hs', hh⟩ := h.border _ hall ⟨s, hs, e⟩
      exact ⟨t, ht, s', hs', hall, hh⟩
  poly := h.convex
  own := h.own
  verts := h.verts
  core := by
    obtain ⟨c, hc⟩ := h.core
    exact ⟨c, fun s hs => le_of_lt (hc s hs), hc⟩
  world := h.world

theorem follow_init {env : Env K C} {p : Vec K} : ∀ (bs : List (Brush K C)), (∀ b ∈ bs, Closed env b) →
    Follow env p bs (bs.map clearOnnode) := by
  intro bs
  induction bs with
  | nil => intro _; exact .nil
  | cons b bs ih =>
    intro h
    refine .keep ?_ (ih fun x hx => h x (List.mem_cons_of_mem _ hx))
    have hb := h b List.mem_cons_self
    refine ⟨Inside env b, solid_congr _ (fun s => ⟨rfl, rfl⟩) (closed_solid hb), fun _ h => h, rfl,
      fun hin => ⟨hin, hb.box p hin⟩, ?_⟩
    intro s hs hon
    simp only [clearOnnode, List.mem_map] at hs
    obtain ⟨a, _, rfl⟩ := hs
    cases hon

end Verif.BrushBsp
