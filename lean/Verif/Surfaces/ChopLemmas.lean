import Verif.Surfaces.SplitLemmas

/-! Lemmas about cutting faces to size. -/

namespace Verif.Surfaces

open Verif.Geom Verif.Geom.Spec Spec

set_option linter.unusedSectionVars false

variable {K : Type} [Field K] [LinearOrder K] [IsStrictOrderedRing K]

theorem dot_comm (a b : Vec K) : dot a b = dot b a := by simp only [dot]; ring

theorem range_none {t : Vec K} {w : List (Vec K)} (h : range t w = none) : w = [] := by
  cases w with
  | nil => rfl
  | cons v l =>
    unfold range at h
    split at h <;> simp at h

theorem range_some {t : Vec K} {w : List (Vec K)} {r : K × K} (h : range t w = some r) :
    (∀ v ∈ w, r.1 ≤ dot v t ∧ dot v t ≤ r.2) ∧ (∃ v ∈ w, dot v t = r.1) ∧ (∃ v ∈ w, dot v t = r.2) := by
  induction w generalizing r with
  | nil => simp [range] at h
  | cons v l ih =>
    unfold range at h
    split at h
    · rename_i hn
      have := range_none hn
      subst this
      simp only [Option.some.injEq] at h
      subst h
      simp
    · rename_i a b hn
      simp only [Option.some.injEq] at h
      subst h
      obtain ⟨h1, ⟨u, hu, e1⟩, ⟨x, hx, e2⟩⟩ := ih hn
      simp only at h1 e1 e2 ⊢
      refine ⟨?_, ?_, ?_⟩
      · intro y hy
        rcases List.mem_cons.1 hy with rfl | hy
        · exact ⟨min_le_right _ _, le_max_right _ _⟩
        · exact ⟨le_trans (min_le_left _ _) (h1 y hy).1, le_trans (h1 y hy).2 (le_max_left _ _)⟩
      · rcases min_choice a (dot v t) with e | e
        · exact ⟨u, List.mem_cons_of_mem _ hu, by rw [e, e1]⟩
        · exact ⟨v, List.mem_cons_self, e.symm⟩
      · rcases max_choice b (dot v t) with e | e
        · exact ⟨x, List.mem_cons_of_mem _ hx, by rw [e, e2]⟩
        · exact ⟨v, List.mem_cons_self, e.symm⟩

variable [FloorRing K]

theorem fits_of_extent {n : Int} {t : Vec K} {w : List (Vec K)} {r : K × K} (h : range t w = some r)
    (he : extent r ≤ n) : FitsIn n t w := by
  intro a ha b hb
  obtain ⟨h1, _, _⟩ := range_some h
  have := Int.ceil_mono (h1 a ha).2
  have := Int.floor_mono (h1 b hb).1
  unfold extent at he
  linarith

theorem extent_of_fits {n : Int} {t : Vec K} {w : List (Vec K)} {r : K × K} (h : range t w = some r)
    (hf : FitsIn n t w) : extent r ≤ n := by
  obtain ⟨_, ⟨u, hu, e1⟩, ⟨x, hx, e2⟩⟩ := range_some h
  have := hf x hx u hu
  rw [e1, e2] at this
  exact this

theorem fits_part {n : Int} {t : Vec K} {f g : Face K} (h : PartOf f g) (hf : FitsIn n t f.w) : FitsIn n t g.w := by
  intro a ha b hb
  obtain ⟨u, hu, e1⟩ := h.2.2.2.2 a (mem_hull ha) t
  obtain ⟨x, hx, e2⟩ := h.2.2.2.2 b (mem_hull hb) ⟨-t.x, -t.y, -t.z⟩
  have h1 := hf u hu x hx
  have e1' : dot a t ≤ dot u t := by rw [dot_comm a, dot_comm u]; exact e1
  have e2' : dot x t ≤ dot b t := by simp only [dot] at e2 ⊢; linarith
  have := Int.ceil_mono e1'
  have := Int.floor_mono e2'
  linarith

theorem cut_unit {len : Vec K → K} {subdiv : Int} {t : Vec K} (hl : IsLength len t) {m : K} (hn : len t ≠ 0) :
    UnitNormal (cutPlane len subdiv t m) := by
  unfold UnitNormal cutPlane
  simp only [if_neg hn]
  have := hl.2
  simp only [dot] at this ⊢
  field_simp
  linarith

theorem cut_dist {len : Vec K → K} {subdiv : Int} {t : Vec K} {m : K} (hn : len t ≠ 0) (v : Vec K) :
    (cutPlane len subdiv t m).distTo v * len t = dot v t - (m + subdiv - 16) := by
  unfold cutPlane Plane.distTo
  simp only [if_neg hn, dot]
  field_simp

/-- A face that is too long is not cut along a direction of length 0. -/
theorem len_ne {len : Vec K → K} {t : Vec K} (hl : IsLength len t) {subdiv : Int} (hs : 0 ≤ subdiv) {w : List (Vec K)}
    {r : K × K} (h : range t w = some r) (he : subdiv < extent r) : 0 < len t := by
  rcases lt_or_eq_of_le hl.1 with h0 | h0
  · exact h0
  · exfalso
    have hd := hl.2
    rw [← h0, mul_zero] at hd
    have e : t.x = 0 ∧ t.y = 0 ∧ t.z = 0 := by
      simp only [dot] at hd
      have a := mul_self_nonneg t.x
      have b := mul_self_nonneg t.y
      have c := mul_self_nonneg t.z
      exact ⟨mul_self_eq_zero.1 (by linarith), mul_self_eq_zero.1 (by linarith), mul_self_eq_zero.1 (by linarith)⟩
    have z : ∀ v : Vec K, dot v t = 0 := by
      intro v; simp only [dot, e.1, e.2.1, e.2.2]; ring
    obtain ⟨_, ⟨u, hu, e1⟩, ⟨x, hx, e2⟩⟩ := range_some h
    rw [z] at e1 e2
    unfold extent at he
    rw [← e1, ← e2] at he
    simp at he
    omega

/-- The rounds of the loop. -/
theorem chop_rec {len : Vec K → K} {eps : K} {subdiv : Int} {t : Vec K} (M : List (Face K) → List (Face K) → Prop)
    (keep : ∀ f s c, M (f :: s) c → FitsIn subdiv t f.w → M s (c ++ [f]))
    (cut : ∀ f s c r, M (f :: s) c → range t f.w = some r → subdiv < extent r →
      M (s ++ (splitFace eps f (cutPlane len subdiv t r.1)).1.toList)
        ((splitFace eps f (cutPlane len subdiv t r.1)).2.toList ++ c))
    {fuel : Nat} {s c l : List (Face K)} (h : chop len eps subdiv t fuel s c = some l) (hM : M s c) : M [] l := by
  induction fuel generalizing s c with
  | zero =>
    cases s with
    | nil =>
      simp only [chop, Option.some.injEq] at h
      exact h ▸ hM
    | cons f s => simp [chop] at h
  | succ fuel ih =>
    cases s with
    | nil =>
      simp only [chop, Option.some.injEq] at h
      exact h ▸ hM
    | cons f s =>
      unfold chop at h
      cases hr : range t f.w with
      | none =>
        simp only [hr] at h
        refine ih h (keep f s c hM ?_)
        rw [range_none hr]
        intro a ha
        simp at ha
      | some r =>
        simp only [hr] at h
        by_cases he : extent r ≤ subdiv
        · rw [if_pos he] at h
          exact ih h (keep f s c hM (fits_of_extent hr he))
        · rw [if_neg he] at h
          exact ih h (cut f s c r hM hr (by omega))

/-- The numbers are such that a cut leaves a small piece and shortens the rest. -/
structure StepOk (len : Vec K → K) (eps : K) (subdiv : Int) (t : Vec K) : Prop where
  he : 0 ≤ eps
  hl : IsLength len t
  small : eps * len t ≤ 14
  big : eps * len t < subdiv - 16

theorem StepOk.pos {len : Vec K → K} {eps : K} {subdiv : Int} {t : Vec K} (h : StepOk len eps subdiv t) :
    0 ≤ subdiv := by
  have h1 : (0 : K) ≤ eps * len t := mul_nonneg h.he h.hl.1
  have h2 := h.big
  have : (0 : K) < (subdiv : K) := by linarith
  have : (0 : Int) < subdiv := by exact_mod_cast this
  omega

section
variable {len : Vec K → K} {eps : K} {subdiv : Int} {t : Vec K}

/-- The piece behind the cut is small enough. -/
theorem back_fits (h : StepOk len eps subdiv t) {f g : Face K} {r : K × K} (hb : BallOk f) (hr : range t f.w = some r)
    (hx : subdiv < extent r) (hg : (splitFace eps f (cutPlane len subdiv t r.1)).2 = some g) : FitsIn subdiv t g.w := by
  have hp := len_ne h.hl h.pos hr hx
  have hu := cut_unit h.hl (subdiv := subdiv) (m := r.1) (ne_of_gt hp)
  have ip := split_back h.he hu hb hg
  have po := isPart_partOf h.he (neg_unit' hu) ip
  obtain ⟨h1, _, _⟩ := range_some hr
  intro a ha b hb'
  have d1 := (part_vertices h.he (neg_unit' hu) ip.part a ha).1
  rw [neg_distTo] at d1
  have d2 : (cutPlane len subdiv t r.1).distTo a * len t ≤ eps * len t :=
    mul_le_mul_of_nonneg_right (by linarith) (le_of_lt hp)
  rw [cut_dist (ne_of_gt hp)] at d2
  have d3 : r.1 ≤ dot b t := by
    obtain ⟨x, hx, e2⟩ := po.2.2.2.2 b (mem_hull hb') ⟨-t.x, -t.y, -t.z⟩
    have := (h1 x hx).1
    simp only [dot] at e2 this ⊢
    linarith
  have s := h.small
  have c1 := Int.ceil_lt_add_one (dot a t)
  have c2 := Int.lt_floor_add_one (dot b t)
  have : ((⌈dot a t⌉ - ⌊dot b t⌋ : Int) : K) < ((subdiv : Int) : K) := by
    push_cast
    linarith
  have := Int.cast_lt.1 this
  omega

/-- The rest in front of the cut begins later. -/
theorem front_later (h : StepOk len eps subdiv t) {f g : Face K} {r : K × K} (hb : BallOk f) (hr : range t f.w = some r)
    (hx : subdiv < extent r) (hg : (splitFace eps f (cutPlane len subdiv t r.1)).1 = some g) :
    ∀ v ∈ g.w, r.1 + (subdiv - 16 - eps * len t) ≤ dot v t ∧ dot v t ≤ r.2 := by
  have hp := len_ne h.hl h.pos hr hx
  have hu := cut_unit h.hl (subdiv := subdiv) (m := r.1) (ne_of_gt hp)
  have ip := split_front h.he hu hb hg
  have po := isPart_partOf h.he hu ip
  obtain ⟨h1, _, _⟩ := range_some hr
  intro a ha
  have d1 := (part_vertices h.he hu ip.part a ha).1
  have d2 : -eps * len t ≤ (cutPlane len subdiv t r.1).distTo a * len t :=
    mul_le_mul_of_nonneg_right (by linarith) (le_of_lt hp)
  rw [cut_dist (ne_of_gt hp)] at d2
  refine ⟨by linarith, ?_⟩
  obtain ⟨x, hx, e2⟩ := po.2.2.2.2 a (mem_hull ha) t
  have := (h1 x hx).2
  rw [dot_comm] at this ⊢
  linarith

/-- Both pieces are there. -/
theorem both (h : StepOk len eps subdiv t) {f : Face K} {r : K × K} (hb : BallOk f) (hr : range t f.w = some r)
    (hx : subdiv < extent r) : ∃ a b, splitFace eps f (cutPlane len subdiv t r.1) = (some a, some b) := by
  have hp := len_ne h.hl h.pos hr hx
  have hu := cut_unit h.hl (subdiv := subdiv) (m := r.1) (ne_of_gt hp)
  obtain ⟨h1, ⟨u, hu', e1⟩, _⟩ := range_some hr
  cases hs : splitFace eps f (cutPlane len subdiv t r.1) with
  | mk a b =>
    cases a with
    | none =>
      have := (split_no_front h.he hu hb (by rw [hs])).2
      have := extent_of_fits hr (back_fits h hb hr hx this)
      omega
    | some a =>
      cases b with
      | none =>
        have h2 := (split_no_back h.he hu hb (by rw [hs])).2
        have := (front_later h hb hr hx h2 u hu').1
        have := h.big
        linarith
      | some b => exact ⟨a, b, rfl⟩

/-- How many more rounds a face takes. -/
noncomputable def rounds (d : K) (t : Vec K) (f : Face K) : Nat :=
  match range t f.w with
  | none => 1
  | some r => (⌈(r.2 - r.1) / d⌉).toNat + 1

theorem rounds_front (h : StepOk len eps subdiv t) {f g : Face K} {r : K × K} (hb : BallOk f) (hr : range t f.w = some r)
    (hx : subdiv < extent r) (hg : (splitFace eps f (cutPlane len subdiv t r.1)).1 = some g) :
    rounds (subdiv - 16 - eps * len t) t g + 1 ≤ rounds (subdiv - 16 - eps * len t) t f := by
  set d : K := subdiv - 16 - eps * len t with hd
  have hpos : 0 < d := by have := h.big; linarith
  have ep : (0 : K) ≤ eps * len t := mul_nonneg h.he h.hl.1
  have big : 1 ≤ (r.2 - r.1) / d := by
    rw [le_div_iff₀ hpos, one_mul]
    have c1 := Int.ceil_lt_add_one r.2
    have c2 := Int.lt_floor_add_one r.1
    unfold extent at hx
    have : ((subdiv : Int) : K) < ((⌈r.2⌉ - ⌊r.1⌋ : Int) : K) := Int.cast_lt.2 hx
    push_cast at this
    linarith
  have c1 : (1 : Int) ≤ ⌈(r.2 - r.1) / d⌉ := by
    have := Int.le_ceil ((r.2 - r.1) / d)
    have : ((1 : Int) : K) ≤ (⌈(r.2 - r.1) / d⌉ : K) := by push_cast; linarith
    exact Int.cast_le.1 this
  have fl := front_later h hb hr hx hg
  unfold rounds
  rw [hr]
  cases hg' : range t g.w with
  | none => simp only; omega
  | some r' =>
    obtain ⟨_, ⟨u, hu, e1⟩, ⟨x, hx', e2⟩⟩ := range_some hg'
    have f1 := (fl u hu).1
    have f2 := (fl x hx').2
    rw [e1] at f1
    rw [e2] at f2
    have : (r'.2 - r'.1) / d ≤ (r.2 - r.1) / d - 1 := by
      rw [div_le_iff₀ hpos, sub_mul, div_mul_cancel₀ _ (ne_of_gt hpos)]
      linarith
    have c2 := Int.ceil_mono this
    rw [Int.ceil_sub_one] at c2
    simp only
    omega

theorem chop_ends (h : StepOk len eps subdiv t) {s c : List (Face K)} (hb : ∀ f ∈ s, BallOk f) {fuel : Nat}
    (hf : (s.map (rounds (subdiv - 16 - eps * len t) t)).sum ≤ fuel) :
    ∃ l, chop len eps subdiv t fuel s c = some l := by
  induction fuel generalizing s c with
  | zero =>
    cases s with
    | nil => exact ⟨c, rfl⟩
    | cons f s =>
      exfalso
      have : 1 ≤ rounds (subdiv - 16 - eps * len t) t f := by unfold rounds; split <;> omega
      simp only [List.map_cons, List.sum_cons] at hf
      omega
  | succ fuel ih =>
    cases s with
    | nil => exact ⟨c, rfl⟩
    | cons f s =>
      have hf1 : 1 ≤ rounds (subdiv - 16 - eps * len t) t f := by unfold rounds; split <;> omega
      simp only [List.map_cons, List.sum_cons] at hf
      have hb' : ∀ g ∈ s, BallOk g := fun g hg => hb g (List.mem_cons_of_mem _ hg)
      have hbf := hb f List.mem_cons_self
      unfold chop
      cases hr : range t f.w with
      | none => exact ih hb' (by omega)
      | some r =>
        simp only
        by_cases he : extent r ≤ subdiv
        · rw [if_pos he]
          exact ih hb' (by omega)
        · rw [if_neg he]
          obtain ⟨a, b, e⟩ := both h hbf hr (by omega)
          rw [e]
          have hp := len_ne h.hl h.pos hr (by omega)
          have hu := cut_unit h.hl (subdiv := subdiv) (m := r.1) (ne_of_gt hp)
          have ha := rounds_front h hbf hr (by omega) (by rw [e])
          refine ih ?_ ?_
          · intro g hg
            rcases List.mem_append.1 hg with hg | hg
            · exact hb' g hg
            · simp only [Option.toList_some, List.mem_singleton] at hg
              subst hg
              exact isPart_ball h.he hu hbf (split_front h.he hu hbf (by rw [e]))
          · simp only [Option.toList_some, List.map_append, List.sum_append, List.map_cons, List.map_nil,
              List.sum_cons, List.sum_nil]
            omega

/-- More rounds change nothing. -/
theorem chop_more {s c l : List (Face K)} {fuel fuel' : Nat} (hf : fuel ≤ fuel')
    (h : chop len eps subdiv t fuel s c = some l) : chop len eps subdiv t fuel' s c = some l := by
  induction fuel generalizing s c fuel' with
  | zero =>
    cases s with
    | nil => cases fuel' <;> exact h
    | cons f s => simp [chop] at h
  | succ fuel ih =>
    obtain ⟨m, rfl⟩ : ∃ m, fuel' = m + 1 := ⟨fuel' - 1, by omega⟩
    cases s with
    | nil => exact h
    | cons f s =>
      unfold chop at h ⊢
      cases hr : range t f.w with
      | none =>
        simp only [hr] at h ⊢
        exact ih (by omega) h
      | some r =>
        simp only [hr] at h ⊢
        by_cases he : extent r ≤ subdiv
        · rw [if_pos he] at h ⊢
          exact ih (by omega) h
        · rw [if_neg he] at h ⊢
          exact ih (by omega) h

end

theorem apart_symm {eps : K} {f g : Face K} (h : Apart eps f g) : Apart eps g f := by
  obtain ⟨pl, hu, h1, h2⟩ := h
  refine ⟨pl.neg, neg_unit' hu, ?_, ?_⟩
  · intro v hv; rw [neg_distTo]; linarith [h2 v hv]
  · intro v hv; rw [neg_distTo]; linarith [h1 v hv]

theorem apart_part {eps : K} {f g f' : Face K} (h : Apart eps f g) (hp : PartOf f f') : Apart eps f' g := by
  obtain ⟨pl, hu, h1, h2⟩ := h
  exact ⟨pl, hu, fun v hv => inHull_ge (hp.2.2.2.2 v (mem_hull hv)) h1, h2⟩

/-- What holds while faces are cut: `L` are the faces at the start. -/
structure Inv (eps : K) (subdiv : Int) (t : Vec K) (L s c : List (Face K)) : Prop where
  ball : ∀ g ∈ s ++ c, BallOk g
  conv : ∀ g ∈ s ++ c, ∃ n k, ConvexRing n k g.w
  part : ∀ g ∈ s ++ c, ∃ f ∈ L, PartOf f g
  fits : ∀ g ∈ c, FitsIn subdiv t g.w
  apart : (s ++ c).Pairwise (Apart eps)
  cover : ∃ cuts : List (Plane K), (∀ p ∈ cuts, UnitNormal p) ∧ cuts.length + L.length = (s ++ c).length ∧
    ∀ q, (∃ f ∈ L, InHull f.w q) → Clear eps cuts q → ∃ g ∈ s ++ c, InHull g.w q

theorem inv_cut {len : Vec K → K} {eps : K} {subdiv : Int} {t : Vec K} (h : StepOk len eps subdiv t)
    {L s c : List (Face K)} {f : Face K} {r : K × K} (hi : Inv eps subdiv t L (f :: s) c) (hr : range t f.w = some r)
    (hx : subdiv < extent r) :
    Inv eps subdiv t L (s ++ (splitFace eps f (cutPlane len subdiv t r.1)).1.toList)
        ((splitFace eps f (cutPlane len subdiv t r.1)).2.toList ++ c) := by
  have hbf := hi.ball f List.mem_cons_self
  obtain ⟨n, k, hcf⟩ := hi.conv f List.mem_cons_self
  obtain ⟨f0, hf0, hpf⟩ := hi.part f List.mem_cons_self
  obtain ⟨a, b, e⟩ := both h hbf hr hx
  have hp := len_ne h.hl h.pos hr hx
  have hu := cut_unit h.hl (subdiv := subdiv) (m := r.1) (ne_of_gt hp)
  have fa := split_front h.he hu hbf (by rw [e])
  have fb := split_back h.he hu hbf (by rw [e])
  have hu' := neg_unit' hu
  have pa := isPart_partOf h.he hu fa
  have pb := isPart_partOf h.he hu' fb
  have bfit := back_fits h hbf hr hx (by rw [e])
  have cov := fun q (hq : InHull f.w q) hd => split_covers h.he hu hbf hcf hq hd (q := q)
  rw [e] at cov ⊢
  simp only [Option.toList_some] at cov ⊢
  have hperm : List.Perm (s ++ [a] ++ ([b] ++ c)) (a :: b :: (s ++ c)) := by
    rw [List.append_assoc]
    refine List.perm_middle.trans ?_
    refine List.Perm.cons a ?_
    simpa using List.perm_middle
  have hmem : ∀ g, g ∈ s ++ [a] ++ ([b] ++ c) ↔ g = a ∨ g = b ∨ g ∈ s ++ c := by
    intro g; rw [hperm.mem_iff]; simp
  have old : ∀ g, g ∈ s ++ c → g ∈ f :: s ++ c := fun g hg => List.mem_cons_of_mem _ hg
  refine ⟨?_, ?_, ?_, ?_, ?_, ?_⟩
  · intro g hg
    rcases (hmem g).1 hg with rfl | rfl | hg
    · exact isPart_ball h.he hu hbf fa
    · exact isPart_ball h.he hu' hbf fb
    · exact hi.ball g (old g hg)
  · intro g hg
    rcases (hmem g).1 hg with rfl | rfl | hg
    · exact ⟨n, k, ring_part h.he hu hcf fa.part⟩
    · exact ⟨n, k, ring_part h.he hu' hcf fb.part⟩
    · exact hi.conv g (old g hg)
  · intro g hg
    rcases (hmem g).1 hg with rfl | rfl | hg
    · exact ⟨f0, hf0, partOf_trans hpf pa⟩
    · exact ⟨f0, hf0, partOf_trans hpf pb⟩
    · exact hi.part g (old g hg)
  · intro g hg
    rcases List.mem_append.1 hg with hg | hg
    · rw [List.mem_singleton.1 hg]; exact bfit
    · exact hi.fits g hg
  · refine (hperm.pairwise_iff (fun h => apart_symm h)).2 ?_
    have hap := hi.apart
    rw [List.cons_append, List.pairwise_cons] at hap
    rw [List.pairwise_cons, List.pairwise_cons]
    refine ⟨?_, fun g hg => apart_part (hap.1 g hg) pb, hap.2⟩
    intro g hg
    rcases List.mem_cons.1 hg with rfl | hg
    · refine ⟨_, hu, fun v hv => (part_vertices h.he hu fa.part v hv).1, fun v hv => ?_⟩
      have := (part_vertices h.he hu' fb.part v hv).1
      rw [neg_distTo] at this
      linarith
    · exact apart_part (hap.1 g hg) pa
  · obtain ⟨cuts, c1, c2, c3⟩ := hi.cover
    refine ⟨cutPlane len subdiv t r.1 :: cuts, ?_, ?_, ?_⟩
    · intro p hp
      rcases List.mem_cons.1 hp with rfl | hp
      · exact hu
      · exact c1 p hp
    · simp only [List.length_cons, List.length_append, List.length_nil, List.cons_append] at c2 ⊢
      omega
    · intro q hq hcl
      have hcl' : Clear eps cuts q := hcl.imp id fun h p hp => h p (List.mem_cons_of_mem _ hp)
      obtain ⟨g, hg, hgq⟩ := c3 q hq hcl'
      rw [List.cons_append] at hg
      rcases List.mem_cons.1 hg with rfl | hg
      · obtain ⟨g', hg', hq'⟩ := cov q hgq (hcl.imp id fun h => h _ List.mem_cons_self)
        refine ⟨g', (hmem g').2 ?_, hq'⟩
        rcases hg' with ⟨hg', _⟩ | ⟨hg', _⟩
        · exact Or.inl (Option.some.inj hg').symm
        · exact Or.inr (Or.inl (Option.some.inj hg').symm)
      · exact ⟨g, (hmem g).2 (Or.inr (Or.inr hg)), hgq⟩

theorem inv_keep {eps : K} {subdiv : Int} {t : Vec K} {L s c : List (Face K)} {f : Face K}
    (hi : Inv eps subdiv t L (f :: s) c) (hf : FitsIn subdiv t f.w) : Inv eps subdiv t L s (c ++ [f]) := by
  have hperm : List.Perm (s ++ (c ++ [f])) (f :: s ++ c) := by
    rw [← List.append_assoc]
    exact List.perm_append_singleton f (s ++ c)
  refine ⟨fun g hg => hi.ball g (hperm.mem_iff.1 hg), fun g hg => hi.conv g (hperm.mem_iff.1 hg),
    fun g hg => hi.part g (hperm.mem_iff.1 hg), ?_, (hperm.pairwise_iff (fun h => apart_symm h)).2 hi.apart, ?_⟩
  · intro g hg
    rcases List.mem_append.1 hg with hg | hg
    · exact hi.fits g hg
    · rw [List.mem_singleton.1 hg]; exact hf
  · obtain ⟨cuts, c1, c2, c3⟩ := hi.cover
    refine ⟨cuts, c1, by rw [hperm.length_eq]; exact c2, fun q hq hcl => ?_⟩
    obtain ⟨g, hg, hgq⟩ := c3 q hq hcl
    exact ⟨g, hperm.mem_iff.2 hg, hgq⟩

theorem chop_inv {len : Vec K → K} {eps : K} {subdiv : Int} {t : Vec K} (h : StepOk len eps subdiv t)
    {L l : List (Face K)} (hb : ∀ g ∈ L, BallOk g) (hc : ∀ g ∈ L, ∃ n k, ConvexRing n k g.w) (ha : L.Pairwise (Apart eps))
    {fuel : Nat} (hl : chop len eps subdiv t fuel L [] = some l) : Inv eps subdiv t L [] l := by
  refine chop_rec (Inv eps subdiv t L) (fun f s c hi hf => inv_keep hi hf)
    (fun f s c r hi hr hx => inv_cut h hi hr hx) hl ?_
  refine ⟨by simpa using hb, by simpa using hc, ?_, by simp, by simpa using ha, ⟨[], by simp, by simp, ?_⟩⟩
  · intro g hg
    rw [List.append_nil] at hg
    exact ⟨g, hg, partOf_refl g⟩
  · intro q hq _
    rw [List.append_nil]
    exact hq

end Verif.Surfaces
