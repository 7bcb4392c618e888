import Verif.Flood.AreaSpec
import Verif.Flood.OutsideLemmas
import Mathlib.Tactic.ByContra

/-! Lemmas: the depth-first flood of areas. -/

namespace Verif.Flood

open Spec Contents

theorem isSolid_iff (c : Contents) : Q2.isSolid c = true ↔ Solid c := by
  simp only [Q2.isSolid, Solid, Bool.and_eq_true, Bool.not_eq_true', tst_bit' c 0 (by decide), tst_bit' c 14 (by decide)]

theorem inAreaPortal_iff (c : Nat → Contents) (v : Nat) : inAreaPortal c v = true ↔ InPortal (c v) := by
  simp only [inAreaPortal, InPortal, tst_bit' (c v) 12 (by decide)]

theorem inAreaPortal_false (c : Nat → Contents) (v : Nat) : inAreaPortal c v = false ↔ ¬ InPortal (c v) := by
  rw [← inAreaPortal_iff]; simp

theorem entityFlood_iff (c : Nat → Contents) (p : Portal) : entityFlood c p = true ↔ Passage c p := by
  simp only [entityFlood, Passage, ← isSolid_iff]
  cases Q2.isSolid (c p.n0) <;> cases Q2.isSolid (c p.n1) <;> simp

theorem areaEntity_some (bs : List (Option Nat)) (e : Nat) : areaEntity bs = some e ↔ EntityOf bs e := by
  induction bs with
  | nil => simp [areaEntity, EntityOf]
  | cons b bs ih =>
    cases b with
    | none =>
      have h1 : areaEntity (none :: bs) = areaEntity bs := by simp [areaEntity]
      rw [h1, ih]
      constructor
      · rintro ⟨pre, post, h, hp⟩
        exact ⟨none :: pre, post, by rw [h]; rfl, by simpa using hp⟩
      · rintro ⟨pre, post, h, hp⟩
        cases pre with
        | nil => simp at h
        | cons a pre =>
          simp only [List.cons_append, List.cons.injEq] at h
          exact ⟨pre, post, h.2, fun x hx => hp x (by simp [hx])⟩
    | some b =>
      have h1 : areaEntity (some b :: bs) = some b := by simp [areaEntity]
      rw [h1]
      constructor
      · intro h
        injection h with h
        subst h
        exact ⟨[], bs, rfl, by simp⟩
      · rintro ⟨pre, post, h, hp⟩
        cases pre with
        | nil => simp at h; simp [h.1]
        | cons a pre =>
          simp only [List.cons_append, List.cons.injEq] at h
          have := hp a (by simp)
          rw [this] at h
          exact absurd h.1 (by simp)

theorem mem_floodNext {w : AreaMap} {v u : Nat} :
    u ∈ floodNext w v ↔ ∃ (k : Nat) (p : Portal), w.portals[k]? = some p ∧ Passage w.contents p ∧ Between p v u := by
  simp only [floodNext, portalsOf, List.mem_map, List.mem_filter, List.mem_reverse, Prod.exists]
  constructor
  · rintro ⟨k', p, ⟨⟨p', i, ⟨hm, hv⟩, heq⟩, hp⟩, rfl⟩
    simp only [Prod.mk.injEq] at heq
    obtain ⟨rfl, rfl⟩ := heq
    rw [List.mem_zipIdx_iff_getElem?] at hm
    refine ⟨i, p', hm, (entityFlood_iff _ _).1 hp, ?_⟩
    unfold Between
    simp only [Bool.or_eq_true, decide_eq_true_eq] at hv
    by_cases h1 : p'.n1 = v
    · rw [if_pos h1]; exact Or.inr ⟨h1, rfl⟩
    · rw [if_neg h1]; exact Or.inl ⟨hv.resolve_right h1, rfl⟩
  · rintro ⟨k, p, hk, hp, hb⟩
    refine ⟨k, p, ⟨⟨p, k, ⟨by rw [List.mem_zipIdx_iff_getElem?]; exact hk, ?_⟩, rfl⟩, (entityFlood_iff _ _).2 hp⟩, ?_⟩
    · rcases hb with ⟨h, -⟩ | ⟨h, -⟩ <;> simp [h]
    · rcases hb with ⟨h, h'⟩ | ⟨h, h'⟩
      · by_cases h1 : p.n1 = v
        · rw [if_pos h1, h, ← h', h1]
        · rw [if_neg h1, h']
      · rw [if_pos h, h']

theorem floodNext_symm {w : AreaMap} {v u : Nat} (h : u ∈ floodNext w v) : v ∈ floodNext w u := by
  obtain ⟨k, p, h1, h2, h3⟩ := mem_floodNext.1 h
  exact mem_floodNext.2 ⟨k, p, h1, h2, between_symm h3⟩

theorem floodNext_leaf {w : AreaMap} (hw : AreaWellFormed w) {v u : Nat} (h : u ∈ floodNext w v) : u ∈ w.leafs := by
  obtain ⟨k, p, h1, h2, h3⟩ := mem_floodNext.1 h
  have hp := List.mem_of_getElem? h1
  have he := hw.ends p hp
  have n0 : p.n0 ∈ w.leafs := he.1.resolve_right fun h => h2.1 (by rw [h]; exact hw.outside)
  have n1 : p.n1 ∈ w.leafs := he.2.resolve_right fun h => h2.2 (by rw [h]; exact hw.outside)
  rcases h3 with ⟨-, h⟩ | ⟨-, h⟩ <;> rw [← h] <;> assumption

/-! ## `touch` -/

theorem touch_idem (c : Nat) (a : Nat × Nat) : touch c (touch c a) = touch c a := by
  unfold touch
  by_cases h1 : a.1 = c ∨ a.2 = c
  · simp [h1]
  · by_cases h2 : a.2 ≠ 0
    · simp [h1, h2]
    · by_cases h3 : a.1 ≠ 0
      · simp [h1, h2, h3]
      · simp [h1, h2, h3]

/-! ## The flood -/

/-- New in `s'`. -/
def New (s s' : AreaState) (u : Nat) : Prop := s.area u = 0 ∧ s'.area u ≠ 0

/-- Seen by the flood from the leafs `L`. -/
def Seen (w : AreaMap) (s s' : AreaState) (L : List Nat) (v : Nat) : Prop :=
  v ∈ L ∨ ∃ u, New s s' u ∧ v ∈ floodNext w u

/-- What a flood with area `c` from the leafs `L` has done. -/
structure Post (w : AreaMap) (c : Nat) (s s' : AreaState) (L : List Nat) : Prop where
  old : ∀ u, s.area u ≠ 0 → s'.area u = s.area u
  new : ∀ u, New s s' u → s'.area u = c ∧ ¬ InPortal (w.contents u) ∧
    ∃ r ∈ L, ¬ InPortal (w.contents r) ∧ Reaches (AreaOpen w.contents) w.portals r u
  closed : ∀ v, Seen w s s' L v → InPortal (w.contents v) ∨ s'.area v ≠ 0
  touched : ∀ e, s'.portalareas e = s.portalareas e ∨ (s'.portalareas e = touch c (s.portalareas e) ∧
    ∃ v, Seen w s s' L v ∧ InPortal (w.contents v) ∧ areaEntity (w.brushes v) = some e)
  done : ∀ v e, Seen w s s' L v → InPortal (w.contents v) → areaEntity (w.brushes v) = some e →
    touch c (s'.portalareas e) = s'.portalareas e

theorem post_nil (w : AreaMap) (c : Nat) (s : AreaState) : Post w c s s [] where
  old := fun _ _ => rfl
  new := fun u h => absurd h.1 h.2
  closed := by
    rintro v (h | ⟨u, h, -⟩)
    · simp at h
    · exact absurd h.1 h.2
  touched := fun _ => Or.inl rfl
  done := by
    rintro v e (h | ⟨u, h, -⟩)
    · simp at h
    · exact absurd h.1 h.2

theorem post_append {w : AreaMap} {c : Nat} {s s1 s2 : AreaState} {L1 L2 : List Nat} (h1 : Post w c s s1 L1)
    (h2 : Post w c s1 s2 L2) : Post w c s s2 (L1 ++ L2) := by
  have new_iff : ∀ u, New s s2 u ↔ New s s1 u ∨ New s1 s2 u := by
    intro u
    constructor
    · rintro ⟨ha, hb⟩
      by_cases hc : s1.area u = 0
      · exact Or.inr ⟨hc, hb⟩
      · exact Or.inl ⟨ha, hc⟩
    · rintro (⟨ha, hb⟩ | ⟨ha, hb⟩)
      · exact ⟨ha, by rw [h2.old u hb]; exact hb⟩
      · refine ⟨?_, hb⟩
        by_contra hc
        exact hc ((h1.old u hc).symm.trans ha)
  have seen_iff : ∀ v, Seen w s s2 (L1 ++ L2) v ↔ Seen w s s1 L1 v ∨ Seen w s1 s2 L2 v := by
    intro v
    constructor
    · rintro (h | ⟨u, hu, hv⟩)
      · rcases List.mem_append.1 h with h | h
        · exact Or.inl (Or.inl h)
        · exact Or.inr (Or.inl h)
      · rcases (new_iff u).1 hu with hu | hu
        · exact Or.inl (Or.inr ⟨u, hu, hv⟩)
        · exact Or.inr (Or.inr ⟨u, hu, hv⟩)
    · rintro ((h | ⟨u, hu, hv⟩) | (h | ⟨u, hu, hv⟩))
      · exact Or.inl (List.mem_append.2 (Or.inl h))
      · exact Or.inr ⟨u, (new_iff u).2 (Or.inl hu), hv⟩
      · exact Or.inl (List.mem_append.2 (Or.inr h))
      · exact Or.inr ⟨u, (new_iff u).2 (Or.inr hu), hv⟩
  have keep : ∀ e, touch c (s1.portalareas e) = s1.portalareas e → s2.portalareas e = s1.portalareas e := by
    intro e he
    rcases h2.touched e with h | ⟨h, -⟩
    · exact h
    · rw [h, he]
  refine ⟨?_, ?_, ?_, ?_, ?_⟩
  · intro u hu
    have := h1.old u hu
    rw [h2.old u (by rw [this]; exact hu), this]
  · intro u hu
    rcases (new_iff u).1 hu with hu' | hu'
    · obtain ⟨ha, hb, r, hr, hc⟩ := h1.new u hu'
      exact ⟨by rw [h2.old u hu'.2]; exact ha, hb, r, List.mem_append.2 (Or.inl hr), hc⟩
    · obtain ⟨ha, hb, r, hr, hc⟩ := h2.new u hu'
      exact ⟨ha, hb, r, List.mem_append.2 (Or.inr hr), hc⟩
  · intro v hv
    rcases (seen_iff v).1 hv with hv | hv
    · rcases h1.closed v hv with h | h
      · exact Or.inl h
      · exact Or.inr (by rw [h2.old v h]; exact h)
    · exact h2.closed v hv
  · intro e
    rcases h1.touched e with ha | ⟨ha, v, hv, hv'⟩
    · rcases h2.touched e with hb | ⟨hb, v, hv, hv'⟩
      · exact Or.inl (hb.trans ha)
      · exact Or.inr ⟨by rw [hb, ha], v, (seen_iff v).2 (Or.inr hv), hv'⟩
    · refine Or.inr ⟨?_, v, (seen_iff v).2 (Or.inl hv), hv'⟩
      rcases h2.touched e with hb | ⟨hb, -⟩
      · rw [hb, ha]
      · rw [hb, ha, touch_idem]
  · intro v e hv hp he
    rcases (seen_iff v).1 hv with hv | hv
    · have := h1.done v e hv hp he
      rw [keep e this, this]
    · exact h2.done v e hv hp he

/-- Number of leafs without an area. -/
def free (V : List Nat) (area : Nat → Nat) : Nat := (V.filter fun v => area v = 0).length

theorem free_mono {V : List Nat} {a b : Nat → Nat} (h : ∀ u, a u ≠ 0 → b u ≠ 0) : free V b ≤ free V a := by
  induction V with
  | nil => simp [free]
  | cons v V ih =>
    simp only [free, List.filter_cons] at ih ⊢
    by_cases hb : b v = 0
    · have ha : a v = 0 := by by_contra hc; exact h v hc hb
      simp [ha, hb, ih]
    · by_cases ha : a v = 0
      · simp [ha, hb]; omega
      · simp [ha, hb, ih]

theorem free_set {V : List Nat} {a : Nat → Nat} {v c : Nat} (hv : v ∈ V) (ha : a v = 0) (hc : c ≠ 0) :
    free V (setAt a v c) < free V a := by
  induction V with
  | nil => simp at hv
  | cons x V ih =>
    have hm : free V (setAt a v c) ≤ free V a := free_mono (fun u hu => by
      by_cases h : u = v
      · rw [h, setAt_self]; exact hc
      · rw [setAt_ne _ _ h]; exact hu)
    by_cases hx : x = v
    · subst hx
      simp only [free, List.filter_cons, setAt_self] at hm ⊢
      simp [ha, hc]; omega
    · have hv' : v ∈ V := by
        rcases List.mem_cons.1 hv with h | h
        · exact absurd h.symm hx
        · exact h
      have := ih hv'
      simp only [free, List.filter_cons, setAt_ne _ _ hx] at this ⊢
      by_cases h : a x = 0
      · simp [h, this]
      · simp [h, this]

theorem foldFlood_ok {w : AreaMap} {c : Nat} {f : Nat → AreaState → Option AreaState} {n : Nat}
    (hf : ∀ v s, v ∈ w.leafs → free w.leafs s.area < n → ∃ s', f v s = some s' ∧ Post w c s s' [v]) :
    ∀ (L : List Nat) (s : AreaState), (∀ v ∈ L, v ∈ w.leafs) → free w.leafs s.area < n →
    ∃ s', L.foldlM (fun s u => f u s) s = some s' ∧ Post w c s s' L := by
  intro L
  induction L with
  | nil => intro s _ _; exact ⟨s, rfl, post_nil w c s⟩
  | cons v L ih =>
    intro s hL hs
    obtain ⟨s1, h1, p1⟩ := hf v s (hL v (by simp)) hs
    have hm : free w.leafs s1.area ≤ free w.leafs s.area := free_mono fun u hu => by rw [p1.old u hu]; exact hu
    obtain ⟨s2, h2, p2⟩ := ih s1 (fun u hu => hL u (by simp [hu])) (by omega)
    refine ⟨s2, ?_, post_append p1 p2⟩
    rw [List.foldlM_cons, h1]
    exact h2

theorem floodAreas_ok {w : AreaMap} (hw : AreaWellFormed w) {c : Nat} (hc : c ≠ 0) : ∀ (fuel : Nat) (v : Nat) (s : AreaState),
    v ∈ w.leafs → free w.leafs s.area < fuel → ∃ s', floodAreas w c fuel v s = some s' ∧ Post w c s s' [v] := by
  intro fuel
  induction fuel with
  | zero => intro v s _ h; omega
  | succ fuel ih =>
    intro v s hv hf
    unfold floodAreas
    by_cases hp : inAreaPortal w.contents v = true
    · rw [if_pos hp]
      have hp' := (inAreaPortal_iff _ _).1 hp
      cases he : areaEntity (w.brushes v) with
      | none =>
        refine ⟨s, rfl, fun _ _ => rfl, fun u h => absurd h.1 h.2, ?_, fun _ => Or.inl rfl, ?_⟩
        · rintro x (h | ⟨u, h, -⟩)
          · rw [List.mem_singleton.1 h]; exact Or.inl hp'
          · exact absurd h.1 h.2
        · rintro x e (h | ⟨u, h, -⟩) _ hx
          · rw [List.mem_singleton.1 h, he] at hx; exact absurd hx (by simp)
          · exact absurd h.1 h.2
      | some e =>
        refine ⟨_, rfl, fun _ _ => rfl, fun u h => absurd h.1 h.2, ?_, ?_, ?_⟩
        · rintro x (h | ⟨u, h, -⟩)
          · rw [List.mem_singleton.1 h]; exact Or.inl hp'
          · exact absurd h.1 h.2
        · intro e'
          by_cases hee : e' = e
          · subst hee
            exact Or.inr ⟨by simp only [setAt_self], v, Or.inl (by simp), hp', he⟩
          · exact Or.inl (by simp only [setAt_ne _ _ hee])
        · rintro x e' (h | ⟨u, h, -⟩) _ hx
          · rw [List.mem_singleton.1 h, he] at hx
            injection hx with hx
            subst hx
            simp only [setAt_self, touch_idem]
          · exact absurd h.1 h.2
    · rw [if_neg hp]
      have hp' : ¬ InPortal (w.contents v) := fun h => hp ((inAreaPortal_iff _ _).2 h)
      by_cases ha : s.area v ≠ 0
      · rw [if_pos ha]
        refine ⟨s, rfl, fun _ _ => rfl, fun u h => absurd h.1 h.2, ?_, fun _ => Or.inl rfl, ?_⟩
        · rintro x (h | ⟨u, h, -⟩)
          · rw [List.mem_singleton.1 h]; exact Or.inr ha
          · exact absurd h.1 h.2
        · rintro x e (h | ⟨u, h, -⟩) hx
          · rw [List.mem_singleton.1 h] at hx; exact absurd hx hp'
          · exact absurd h.1 h.2
      · rw [if_neg ha]
        have ha' : s.area v = 0 := by omega
        have hlt := free_set (c := c) hv ha' hc
        obtain ⟨s2, h2, p2⟩ := foldFlood_ok (w := w) (c := c) (f := floodAreas w c fuel) (n := fuel)
          (fun u t hu ht => ih u t hu ht) (floodNext w v) { s with area := setAt s.area v c }
          (fun u hu => floodNext_leaf hw hu) (by simp only; omega)
        refine ⟨s2, h2, ?_⟩
        have hv2 : s2.area v = c := by
          rw [p2.old v (by simp only [setAt_self]; exact hc)]
          simp only [setAt_self]
        have new_iff : ∀ u, New s s2 u ↔ u = v ∨ New { s with area := setAt s.area v c } s2 u := by
          intro u
          unfold New
          by_cases hu : u = v
          · subst hu
            simp only [true_or, iff_true]
            exact ⟨ha', by rw [hv2]; exact hc⟩
          · simp only [hu, false_or, setAt_ne _ _ hu]
        have seen_iff : ∀ x, Seen w s s2 [v] x ↔ x = v ∨ Seen w { s with area := setAt s.area v c } s2 (floodNext w v) x := by
          intro x
          constructor
          · rintro (h | ⟨u, hu, hx⟩)
            · exact Or.inl (List.mem_singleton.1 h)
            · rcases (new_iff u).1 hu with rfl | hu
              · exact Or.inr (Or.inl hx)
              · exact Or.inr (Or.inr ⟨u, hu, hx⟩)
          · rintro (rfl | h | ⟨u, hu, hx⟩)
            · exact Or.inl (by simp)
            · exact Or.inr ⟨v, (new_iff v).2 (Or.inl rfl), h⟩
            · exact Or.inr ⟨u, (new_iff u).2 (Or.inr hu), hx⟩
        refine ⟨?_, ?_, ?_, ?_, ?_⟩
        · intro u hu
          have huv : u ≠ v := fun h => hu (h ▸ ha')
          rw [p2.old u (by simp only [setAt_ne _ _ huv]; exact hu)]
          simp only [setAt_ne _ _ huv]
        · intro u hu
          rcases (new_iff u).1 hu with rfl | hu
          · exact ⟨hv2, hp', u, by simp, hp', [], [u], .nil u⟩
          · obtain ⟨h3, h4, r, hr, h5, ks, vs, h6⟩ := p2.new u hu
            refine ⟨h3, h4, v, by simp, hp', ?_⟩
            obtain ⟨k, p, hk, hpp, hb⟩ := mem_floodNext.1 hr
            refine ⟨k :: ks, v :: vs, .cons v k r u p ks vs hk ⟨hpp, ?_⟩ hb h6⟩
            rcases hb with ⟨h, h'⟩ | ⟨h, h'⟩
            · rw [h, h']; exact ⟨hp', h5⟩
            · rw [h, h']; exact ⟨h5, hp'⟩
        · intro x hx
          rcases (seen_iff x).1 hx with rfl | hx
          · exact Or.inr (by rw [hv2]; exact hc)
          · exact p2.closed x hx
        · intro e
          rcases p2.touched e with h | ⟨h, x, hx, h'⟩
          · exact Or.inl h
          · exact Or.inr ⟨h, x, (seen_iff x).2 (Or.inr hx), h'⟩
        · intro x e hx hxp hxe
          rcases (seen_iff x).1 hx with rfl | hx
          · exact absurd hxp hp'
          · exact p2.done x e hx hxp hxe

/-! ## The areas one after the other -/

theorem firstTwo_step {P P' : Nat → Prop} {Q : Prop} {c : Nat} {a a' : Nat × Nat} (h : FirstTwo P a)
    (hP : ∀ i, P i → 0 < i ∧ i ≤ c) (hP' : ∀ i, P' i ↔ P i ∨ (i = c + 1 ∧ Q)) (hyes : Q → a' = touch (c + 1) a)
    (hno : ¬ Q → a' = a) : FirstTwo P' a' := by
  by_cases hQ : Q
  · rw [hyes hQ]
    have hc : P' (c + 1) := (hP' _).2 (Or.inr ⟨rfl, hQ⟩)
    rcases h with ⟨rfl, h⟩ | ⟨x, rfl, hx, h⟩ | ⟨h1, h2, h3, h4⟩
    · refine Or.inr (Or.inl ⟨c + 1, by simp [touch], hc, ?_⟩)
      intro i hi
      rcases (hP' i).1 hi with hi | hi
      · exact absurd hi (h i)
      · exact hi.1
    · have := hP x hx
      have ht : touch (c + 1) (x, 0) = (x, c + 1) := by
        unfold touch
        have h1 : x ≠ c + 1 := by omega
        have h2 : x ≠ 0 := by omega
        simp [h1, h2]
      rw [ht]
      refine Or.inr (Or.inr ⟨by simp only; omega, (hP' _).2 (Or.inl hx), hc, ?_⟩)
      intro i hi
      rcases (hP' i).1 hi with hi | hi
      · exact Or.inl (h i hi)
      · exact Or.inr (Or.inl hi.1)
    · have := hP _ h2
      have := hP _ h3
      have ht : touch (c + 1) a = a := by
        unfold touch
        by_cases hx : a.1 = c + 1 ∨ a.2 = c + 1
        · rw [if_pos hx]
        · rw [if_neg hx, if_pos (by omega)]
      rw [ht]
      refine Or.inr (Or.inr ⟨h1, (hP' _).2 (Or.inl h2), (hP' _).2 (Or.inl h3), ?_⟩)
      intro i hi
      rcases (hP' i).1 hi with hi | hi
      · exact h4 i hi
      · exact Or.inr (Or.inr (by omega))
  · rw [hno hQ]
    have : P' = P := funext fun i => propext (by rw [hP' i]; simp [hQ])
    rw [this]
    exact h

/-- The state after some of the leafs. -/
structure AreaInv (w : AreaMap) (s : AreaState) (c : Nat) : Prop where
  low : ∀ u, s.area u ≠ 0 → s.area u ≤ c ∧ ¬ InPortal (w.contents u)
  rep : ∀ i, 0 < i → i ≤ c → ∃ r, Start w r ∧ s.area r = i ∧
    ∀ u, s.area u = i → Reaches (AreaOpen w.contents) w.portals r u
  closed : ∀ u, s.area u ≠ 0 → ∀ v ∈ floodNext w u, InPortal (w.contents v) ∨ s.area v = s.area u
  portals : ∀ e, FirstTwo (Beside w s.area e) (s.portalareas e)

theorem beside_iff {w : AreaMap} {area : Nat → Nat} {e i : Nat} :
    Beside w area e i ↔ 0 < i ∧ ∃ u v, v ∈ floodNext w u ∧ area u = i ∧ InPortal (w.contents v) ∧
      ¬ InPortal (w.contents u) ∧ areaEntity (w.brushes v) = some e := by
  unfold Beside
  constructor
  · rintro ⟨h0, u, v, p, h1, h2, h3, h4, h5, h6, h7⟩
    obtain ⟨k, hk⟩ := List.mem_iff_getElem?.1 h1
    exact ⟨h0, u, v, mem_floodNext.2 ⟨k, p, hk, h3, h2⟩, h4, h5, h6, (areaEntity_some _ _).2 h7⟩
  · rintro ⟨h0, u, v, h1, h4, h5, h6, h7⟩
    obtain ⟨k, p, hk, h3, h2⟩ := mem_floodNext.1 h1
    exact ⟨h0, u, v, p, List.mem_of_getElem? hk, h2, h3, h4, h5, h6, (areaEntity_some _ _).1 h7⟩

theorem areaInv_step {w : AreaMap} {s s' : AreaState} {c v : Nat} (hi : AreaInv w s c) (hv : Start w v) (ha : s.area v = 0)
    (hp : Post w (c + 1) s s' [v]) : AreaInv w s' (c + 1) ∧ s'.area v ≠ 0 := by
  have hva : s'.area v ≠ 0 := (hp.closed v (Or.inl (by simp))).resolve_left hv.2.2.2
  have hvc : s'.area v = c + 1 := (hp.new v ⟨ha, hva⟩).1
  -- old areas are as before
  have areas : ∀ u, s'.area u ≠ 0 → (s.area u = s'.area u ∧ s'.area u ≤ c) ∨ (s.area u = 0 ∧ s'.area u = c + 1) := by
    intro u hu
    by_cases h : s.area u = 0
    · exact Or.inr ⟨h, (hp.new u ⟨h, hu⟩).1⟩
    · have := hp.old u h
      exact Or.inl ⟨this.symm, by rw [this]; exact (hi.low u h).1⟩
  have same : ∀ u i, i ≤ c → i ≠ 0 → (s'.area u = i ↔ s.area u = i) := by
    intro u i h1 h2
    constructor
    · intro h
      rcases areas u (by omega) with h' | h' <;> omega
    · intro h
      rw [hp.old u (by omega), h]
  refine ⟨⟨?_, ?_, ?_, ?_⟩, hva⟩
  · intro u hu
    by_cases h : s.area u = 0
    · have := hp.new u ⟨h, hu⟩
      exact ⟨by omega, this.2.1⟩
    · have := hi.low u h
      rw [hp.old u h]
      exact ⟨by omega, this.2⟩
  · intro i h0 h1
    by_cases h2 : i = c + 1
    · subst h2
      refine ⟨v, hv, hvc, ?_⟩
      intro u hu
      rcases areas u (by omega) with h | h
      · omega
      · obtain ⟨-, -, r, hr, -, h3⟩ := hp.new u ⟨h.1, by omega⟩
        rw [List.mem_singleton.1 hr] at h3
        exact h3
    · obtain ⟨r, hr1, hr2, hr3⟩ := hi.rep i h0 (by omega)
      refine ⟨r, hr1, (same r i (by omega) (by omega)).2 hr2, ?_⟩
      intro u hu
      exact hr3 u ((same u i (by omega) (by omega)).1 hu)
  · intro u hu x hx
    by_cases hxp : InPortal (w.contents x)
    · exact Or.inl hxp
    right
    rcases areas u hu with h | h
    · have hu' : s.area u ≠ 0 := by omega
      have := (hi.closed u hu' x hx).resolve_left hxp
      rw [hp.old x (by omega), hp.old u hu', this]
    · have hxs : s'.area x ≠ 0 := (hp.closed x (Or.inr ⟨u, ⟨h.1, hu⟩, hx⟩)).resolve_left hxp
      rcases areas x hxs with h' | h'
      · have hx' : s.area x ≠ 0 := by omega
        have hup : ¬ InPortal (w.contents u) := (hp.new u ⟨h.1, hu⟩).2.1
        have := (hi.closed x hx' u (floodNext_symm hx)).resolve_left hup
        omega
      · omega
  · intro e
    have hseen : ∀ x, Seen w s s' [v] x → InPortal (w.contents x) → areaEntity (w.brushes x) = some e →
        Beside w s'.area e (c + 1) := by
      rintro x (hx | ⟨u, hu, hx⟩) hxp hxe
      · rw [List.mem_singleton.1 hx] at hxp; exact absurd hxp hv.2.2.2
      · have := hp.new u hu
        exact beside_iff.2 ⟨by omega, u, x, hx, this.1, hxp, this.2.1, hxe⟩
    refine firstTwo_step (c := c) (Q := Beside w s'.area e (c + 1)) (hi.portals e) ?_ ?_ ?_ ?_
    · rintro i hb
      obtain ⟨h0, u, x, -, hu, -⟩ := beside_iff.1 hb
      exact ⟨h0, by rw [← hu]; exact (hi.low u (by omega)).1⟩
    · intro i
      constructor
      · intro hb
        by_cases h : i = c + 1
        · subst h; exact Or.inr ⟨rfl, hb⟩
        · obtain ⟨h0, u, x, hx, hu, hr⟩ := beside_iff.1 hb
          left
          refine beside_iff.2 ⟨h0, u, x, hx, ?_, hr⟩
          rcases areas u (by omega) with h' | h'
          · omega
          · omega
      · rintro (hb | ⟨rfl, hb⟩)
        · obtain ⟨h0, u, x, hx, hu, hr⟩ := beside_iff.1 hb
          exact beside_iff.2 ⟨h0, u, x, hx, by rw [hp.old u (by omega), hu], hr⟩
        · exact hb
    · intro hb
      obtain ⟨h0, u, x, hx, hu, hxp, hup, hxe⟩ := beside_iff.1 hb
      have hnew : New s s' u := by
        rcases areas u (by omega) with h' | h'
        · omega
        · exact ⟨h'.1, by omega⟩
      have hd := hp.done x e (Or.inr ⟨u, hnew, hx⟩) hxp hxe
      rcases hp.touched e with h | ⟨h, -⟩
      · rw [h] at hd ⊢; exact hd.symm
      · exact h
    · intro hb
      rcases hp.touched e with h | ⟨h, x, h1, h2, h3⟩
      · exact h
      · exact absurd (hseen x h1 h2 h3) hb

theorem findAreas_ok {w : AreaMap} (hw : AreaWellFormed w) {fuel : Nat} (hf : w.leafs.length < fuel) :
    ∀ (vs : List Nat) (s : AreaState) (c : Nat), (∀ v ∈ vs, v ∈ w.leafs) → AreaInv w s c →
    ∃ s' c', findAreas w fuel vs (s, c) = some (s', c') ∧ AreaInv w s' c' ∧ (∀ u, s.area u ≠ 0 → s'.area u = s.area u) ∧
      ∀ v ∈ vs, Start w v → s'.area v ≠ 0 := by
  intro vs
  induction vs with
  | nil => intro s c _ hi; exact ⟨s, c, rfl, hi, fun _ _ => rfl, by simp⟩
  | cons v vs ih =>
    intro s c hvs hi
    have hvs' : ∀ v ∈ vs, v ∈ w.leafs := fun u hu => hvs u (by simp [hu])
    have skip : (Start w v → s.area v ≠ 0) → findAreas w fuel (v :: vs) (s, c) = findAreas w fuel vs (s, c) →
        ∃ s' c', findAreas w fuel (v :: vs) (s, c) = some (s', c') ∧ AreaInv w s' c' ∧
          (∀ u, s.area u ≠ 0 → s'.area u = s.area u) ∧ ∀ u ∈ v :: vs, Start w u → s'.area u ≠ 0 := by
      intro h1 h2
      obtain ⟨s', c', h3, h4, h5, h6⟩ := ih s c hvs' hi
      refine ⟨s', c', by rw [h2, h3], h4, h5, ?_⟩
      intro u hu hs
      rcases List.mem_cons.1 hu with rfl | hu
      · rw [h5 u (h1 hs)]; exact h1 hs
      · exact h6 u hu hs
    by_cases h1 : s.area v ≠ 0
    · exact skip (fun _ => h1) (by simp only [findAreas]; rw [if_pos h1])
    · by_cases h2 : Q2.isAnySolid (w.contents v) = true
      · refine skip (fun hs => ?_) (by simp only [findAreas]; rw [if_neg h1, if_pos h2])
        have h3 := hs.2.2.1
        simp only [Q2.isAnySolid, tst_bit' (w.contents v) 0 (by decide)] at h2
        rw [h2] at h3
        exact absurd h3 (by simp)
      · by_cases h3 : w.occupied v = 0
        · exact skip (fun hs => absurd h3 hs.2.1) (by simp only [findAreas]; rw [if_neg h1, if_neg h2, if_pos h3])
        · by_cases h4 : inAreaPortal w.contents v = true
          · exact skip (fun hs => absurd ((inAreaPortal_iff _ _).1 h4) hs.2.2.2)
              (by simp only [findAreas]; rw [if_neg h1, if_neg h2, if_neg h3, if_pos h4])
          · have hstart : Start w v := by
              refine ⟨hvs v (by simp), h3, ?_, fun h => h4 ((inAreaPortal_iff _ _).2 h)⟩
              simp only [Q2.isAnySolid, tst_bit' (w.contents v) 0 (by decide), Bool.not_eq_true] at h2
              exact h2
            have hlen : free w.leafs s.area ≤ w.leafs.length := List.length_filter_le _ _
            obtain ⟨s1, hs1, hp⟩ := floodAreas_ok hw (c := c + 1) (by omega) fuel v s hstart.1 (by omega)
            obtain ⟨hi1, hva⟩ := areaInv_step hi hstart (by omega) hp
            obtain ⟨s', c', h5, h6, h7, h8⟩ := ih s1 (c + 1) hvs' hi1
            refine ⟨s', c', ?_, h6, ?_, ?_⟩
            · simp only [findAreas]
              rw [if_neg h1, if_neg h2, if_neg h3, if_neg h4, hs1]
              exact h5
            · intro u hu
              rw [h7 u (by rw [hp.old u hu]; exact hu), hp.old u hu]
            · intro u hu hs
              rcases List.mem_cons.1 hu with rfl | hu
              · rw [h7 u hva]; exact hva
              · exact h8 u hu hs

theorem reaches_area {w : AreaMap} {s : AreaState} {c : Nat} (hi : AreaInv w s c) {u v : Nat}
    (h : Reaches (AreaOpen w.contents) w.portals u v) (hu : s.area u ≠ 0) : s.area v = s.area u := by
  obtain ⟨ks, vs, h⟩ := h
  induction h with
  | nil v => rfl
  | cons u k x v p ks vs h1 h2 h3 _ ih =>
    have hx : x ∈ floodNext w u := mem_floodNext.2 ⟨k, p, h1, h2.1, h3⟩
    have hxp : ¬ InPortal (w.contents x) := by
      rcases h3 with ⟨-, h⟩ | ⟨-, h⟩ <;> rw [← h]
      · exact h2.2.2
      · exact h2.2.1
    have := (hi.closed u hu x hx).resolve_left hxp
    rw [ih (by omega), this]

/-! ## The leafs of area portals -/

theorem setPortalAreas_spec (w : AreaMap) (pa : Nat → Nat × Nat) : ∀ (vs : List Nat) (area : Nat → Nat) (v : Nat),
    setPortalAreas w pa vs area v =
      if v ∈ vs ∧ w.contents v = AREAPORTAL ∧ area v = 0 then ((areaEntity (w.brushes v)).map fun e => (pa e).1).getD 0
      else area v := by
  intro vs
  induction vs with
  | nil => intro area v; simp [setPortalAreas]
  | cons x vs ih =>
    intro area v
    simp only [setPortalAreas]
    by_cases h1 : w.contents x ≠ AREAPORTAL
    · rw [if_pos h1, ih]
      by_cases hv : v = x
      · subst hv; simp [h1]
      · simp [hv]
    · rw [if_neg h1]
      by_cases h2 : area x ≠ 0
      · rw [if_pos h2, ih]
        by_cases hv : v = x
        · subst hv; simp [h2]
        · simp [hv]
      · rw [if_neg h2]
        cases h3 : areaEntity (w.brushes x) with
        | none =>
          simp only
          rw [ih]
          by_cases hv : v = x
          · subst hv
            by_cases hm : v ∈ vs
            · simp [hm]
            · simp only [hm, false_and, if_false, List.mem_cons, true_or, true_and, h3]
              have h1' : w.contents v = AREAPORTAL := by simpa using h1
              have h2' : area v = 0 := by simpa using h2
              simp [h1', h2']
          · simp [hv]
        | some e =>
          simp only
          rw [ih]
          by_cases hv : v = x
          · subst hv
            simp only [setAt_self, List.mem_cons, true_or, true_and, h3]
            have h1' : w.contents v = AREAPORTAL := by simpa using h1
            have h2' : area v = 0 := by simpa using h2
            simp [h1', h2']
          · simp [hv, setAt_ne]

/-! ## The records -/

theorem record_of {i num : Nat} {a : Nat × Nat} : portalRecord i num a =
    if a.1 = i then ⟨num, a.2⟩ else if a.2 = i then ⟨num, a.1⟩ else ⟨0, 0⟩ := rfl

theorem emitPortals_eq (i : Nat) : ∀ (es : List (Nat × (Nat × Nat))) (out : List DAreaPortal), (⟨0, 0⟩ : DAreaPortal) ∈ out →
    (∀ e ∈ es, e.1 ≠ 0 → (e.2.1 = i ∨ e.2.2 = i) → portalRecord i e.1 e.2 ∉ out) →
    es.Pairwise (fun x y => x.1 ≠ 0 → x.1 ≠ y.1) →
    emitPortals i es out = out ++ Records i es := by
  intro es
  induction es with
  | nil => intro out _ _ _; simp [emitPortals, Records]
  | cons e es ih =>
    intro out h0 hf hp
    obtain ⟨num, a⟩ := e
    obtain ⟨hp1, hp2⟩ := List.pairwise_cons.1 hp
    have hf' : ∀ e ∈ es, e.1 ≠ 0 → (e.2.1 = i ∨ e.2.2 = i) → portalRecord i e.1 e.2 ∉ out := fun e he => hf e (by simp [he])
    simp only [emitPortals]
    by_cases hn : num = 0
    · rw [if_pos hn, ih out h0 hf' hp2]
      simp [Records, hn]
    · rw [if_neg hn]
      by_cases ht : a.1 = i ∨ a.2 = i
      · rw [if_neg (hf (num, a) (by simp) hn ht), ih _ (by simp [h0]) ?_ hp2]
        · have : Records i ((num, a) :: es) = portalRecord i num a :: Records i es := by
            by_cases h1 : a.1 = i
            · simp [Records, hn, h1, portalRecord]
            · have h2 := ht.resolve_left h1
              simp [Records, hn, h1, h2, portalRecord]
          rw [this]; simp
        · intro e' he' hn' ht'
          have hne := hp1 e' he' hn
          simp only [List.mem_append, List.mem_singleton, not_or]
          refine ⟨hf' e' he' hn' ht', ?_⟩
          intro heq
          have h1 : (portalRecord i e'.1 e'.2).portalnum = e'.1 := by
            unfold portalRecord
            by_cases h1 : e'.2.1 = i
            · rw [if_pos h1]
            · rw [if_neg h1, if_pos (ht'.resolve_left h1)]
          have h2 : (portalRecord i num a).portalnum = num := by
            unfold portalRecord
            by_cases h1 : a.1 = i
            · rw [if_pos h1]
            · rw [if_neg h1, if_pos (ht.resolve_left h1)]
          rw [heq, h2] at h1
          exact hne h1
      · have hr : portalRecord i num a = ⟨0, 0⟩ := by
          unfold portalRecord
          rw [if_neg (fun h => ht (Or.inl h)), if_neg (fun h => ht (Or.inr h))]
        rw [hr, if_pos h0, ih out h0 hf' hp2]
        have : Records i ((num, a) :: es) = Records i es := by
          simp only [not_or] at ht
          simp [Records, ht.1, ht.2]
        rw [this]

/-- The records of earlier areas: none of them is a record of area `i`. -/
def Earlier (es : List (Nat × (Nat × Nat))) (i : Nat) (out : List DAreaPortal) : Prop :=
  ∀ r ∈ out, r = ⟨0, 0⟩ ∨ ∃ j < i, 0 < j ∧ r ∈ Records j es

theorem mem_records {i : Nat} {es : List (Nat × (Nat × Nat))} {r : DAreaPortal} :
    r ∈ Records i es ↔ ∃ num a, (num, a) ∈ es ∧ num ≠ 0 ∧ ((a.1 = i ∧ r = ⟨num, a.2⟩) ∨ (a.1 ≠ i ∧ a.2 = i ∧ r = ⟨num, a.1⟩)) := by
  simp only [Records, List.mem_filterMap]
  constructor
  · rintro ⟨⟨num, a1, a2⟩, hm, h⟩
    simp only at h
    refine ⟨num, (a1, a2), hm, ?_⟩
    by_cases hn : num = 0
    · simp [hn] at h
    · refine ⟨hn, ?_⟩
      rw [if_neg hn] at h
      by_cases h1 : a1 = i
      · rw [if_pos h1] at h
        injection h with h
        exact Or.inl ⟨h1, h.symm⟩
      · rw [if_neg h1] at h
        by_cases h2 : a2 = i
        · rw [if_pos h2] at h
          injection h with h
          exact Or.inr ⟨h1, h2, h.symm⟩
        · simp [h2] at h
  · rintro ⟨num, ⟨a1, a2⟩, hm, hn, h⟩
    refine ⟨(num, a1, a2), hm, ?_⟩
    simp only
    rw [if_neg hn]
    rcases h with ⟨h1, h2⟩ | ⟨h1, h2, h3⟩
    · simp only at h1 h2; rw [if_pos h1, h2]
    · simp only at h1 h2 h3; rw [if_neg h1, if_pos h2, h3]

theorem eq_of_num {es : List (Nat × (Nat × Nat))} (hp : es.Pairwise (fun x y => x.1 ≠ 0 → x.1 ≠ y.1)) {num : Nat}
    {a b : Nat × Nat} (ha : (num, a) ∈ es) (hb : (num, b) ∈ es) (hn : num ≠ 0) : a = b := by
  induction es with
  | nil => simp at ha
  | cons e es ih =>
    obtain ⟨h1, h2⟩ := List.pairwise_cons.1 hp
    rcases List.mem_cons.1 ha with ha' | ha' <;> rcases List.mem_cons.1 hb with hb' | hb'
    · rw [← ha'] at hb'; simp at hb'; exact hb'.symm
    · subst ha'; exact absurd rfl (h1 (num, b) hb' hn)
    · subst hb'; exact absurd rfl (h1 (num, a) ha' hn)
    · exact ih h2 ha' hb'

theorem emitAreas_eq {es : List (Nat × (Nat × Nat))} (hp : es.Pairwise (fun x y => x.1 ≠ 0 → x.1 ≠ y.1))
    (hd : ∀ e ∈ es, e.2.1 = e.2.2 → e.2.1 = 0) :
    ∀ (n i : Nat) (areas : List DArea) (portals : List DAreaPortal), 0 < i → ⟨0, 0⟩ ∈ portals → Earlier es i portals →
    (emitAreas es i n (areas, portals)).2 = portals ++ ((List.range' i n).map fun j => Records j es).flatten ∧
    ∃ l, (emitAreas es i n (areas, portals)).1 = areas ++ l ∧ l.length = n ∧ ∀ k < n, ∃ d, l[k]? = some d ∧
      (((emitAreas es i n (areas, portals)).2).drop d.first).take d.num = Records (i + k) es := by
  intro n
  induction n with
  | zero => intro i areas portals _ _ _; exact ⟨by simp [emitAreas], [], by simp [emitAreas], rfl, by simp⟩
  | succ n ih =>
    intro i areas portals hi h0 he
    have hfresh : ∀ e ∈ es, e.1 ≠ 0 → (e.2.1 = i ∨ e.2.2 = i) → portalRecord i e.1 e.2 ∉ portals := by
      rintro ⟨num, a⟩ hm hn ht hin
      simp only at hn ht hin
      have hrec : portalRecord i num a ∈ Records i es := by
        rw [mem_records]
        refine ⟨num, a, hm, hn, ?_⟩
        unfold portalRecord
        by_cases h1 : a.1 = i
        · exact Or.inl ⟨h1, by rw [if_pos h1]⟩
        · exact Or.inr ⟨h1, ht.resolve_left h1, by rw [if_neg h1, if_pos (ht.resolve_left h1)]⟩
      obtain ⟨num1, a1, hm1, hn1, h1⟩ := mem_records.1 hrec
      rcases he _ hin with h | ⟨j, hj, hj0, h⟩
      · rcases h1 with ⟨-, h1⟩ | ⟨-, -, h1⟩ <;> · rw [h] at h1; injection h1 with h1 _; exact hn1 h1.symm
      · obtain ⟨num2, a2, hm2, hn2, h2⟩ := mem_records.1 h
        have hnum : num1 = num2 := by
          rcases h1 with ⟨-, h1⟩ | ⟨-, -, h1⟩ <;> rcases h2 with ⟨-, h2⟩ | ⟨-, -, h2⟩ <;>
            · rw [h1] at h2; injection h2
        subst hnum
        have := eq_of_num hp hm1 hm2 hn1
        subst this
        have hne := hd _ hm1
        simp only at hne
        rcases h1 with ⟨h3, h1⟩ | ⟨h3, h4, h1⟩ <;> rcases h2 with ⟨h5, h2⟩ | ⟨h5, h6, h2⟩
        · omega
        · rw [h1] at h2; injection h2 with _ h2; have := hne h2.symm; omega
        · rw [h1] at h2; injection h2 with _ h2; have := hne h2; omega
        · omega
    have hstep := emitPortals_eq i es portals h0 hfresh hp
    have he' : Earlier es (i + 1) (emitPortals i es portals) := by
      rw [hstep]
      intro r hr
      rcases List.mem_append.1 hr with hr | hr
      · rcases he r hr with h | ⟨j, h1, h2, h3⟩
        · exact Or.inl h
        · exact Or.inr ⟨j, by omega, h2, h3⟩
      · exact Or.inr ⟨i, by omega, hi, hr⟩
    obtain ⟨h1, l, h2, h3, h4⟩ := ih (i + 1) (areas ++ [⟨(emitPortals i es portals).length - portals.length, portals.length⟩])
      (emitPortals i es portals) (by omega) (by rw [hstep]; simp [h0]) he'
    simp only [emitAreas]
    refine ⟨?_, ⟨(emitPortals i es portals).length - portals.length, portals.length⟩ :: l, ?_, by simp [h3], ?_⟩
    · rw [h1, hstep, List.range'_succ]; simp
    · rw [h2]; simp
    · intro k hk
      cases k with
      | zero =>
        refine ⟨_, rfl, ?_⟩
        simp only
        rw [h1, hstep]
        simp
      | succ k =>
        obtain ⟨d, h5, h6⟩ := h4 k (by omega)
        refine ⟨d, by simpa using h5, ?_⟩
        rw [h6]
        congr 1
        omega

end Verif.Flood
