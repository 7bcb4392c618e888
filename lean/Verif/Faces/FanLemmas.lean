import Verif.Faces.MwtLemmas
import Mathlib.Data.List.Nodup

/-! Lemmas about fans of triangles. -/

namespace Verif.Faces

open Spec

/-- A triangle with its corners in order, below `n`. -/
def Sorted (n : Nat) (t : Tri) : Prop := t.1 < t.2.1 ∧ t.2.1 < t.2.2 ∧ t.2.2 < n

theorem cyc_eq (s n : Nat) (h : s ≤ n) : cyc s n = List.range' s (n - s) ++ List.range' 0 s := by
  unfold cyc
  rw [List.range_eq_range']
  have : List.range' 0 n = List.range' 0 s ++ List.range' s (n - s) := by
    have e : n = s + (n - s) := by omega
    conv_lhs => rw [e]
    rw [← List.range'_append_1]
    simp
  rw [this, List.drop_append_of_le_length (by simp), List.take_append_of_le_length (by simp)]
  simp

theorem cyc_nodup (s n : Nat) (h : s ≤ n) : (cyc s n).Nodup := by
  rw [cyc_eq s n h, List.nodup_append]
  refine ⟨List.nodup_range', List.nodup_range', ?_⟩
  intro a ha b hb
  rw [List.mem_range'_1] at ha hb
  omega

theorem cyc_mem {s n v : Nat} (h : s ≤ n) : v ∈ cyc s n ↔ v < n := by
  rw [cyc_eq s n h, List.mem_append, List.mem_range'_1, List.mem_range'_1]
  omega

theorem range_split (s a n : Nat) (h1 : s ≤ a) (h2 : a < n) :
    List.range' s (n - s) = List.range' s (a - s) ++ a :: List.range' (a + 1) (n - (a + 1)) := by
  have e : n - s = (a - s) + ((n - (a + 1)) + 1) := by omega
  have e2 : s + (a - s) = a := by omega
  rw [e, ← List.range'_append_1, List.range'_succ, e2]

theorem takeWhile_stop {l : List Nat} {f : Nat} {r : List Nat} (h : f ∉ l) :
    (l ++ f :: r).takeWhile (fun x => decide (x ≠ f)) = l := by
  rw [List.takeWhile_append_of_pos]
  · simp
  · intro a ha
    simp only [decide_eq_true_eq]
    rintro rfl
    exact h ha

/-- Around the polygon, `first` is followed by `mid` and then by `last`. -/
theorem cyc_order {n : Nat} {t p : Tri} (ht : Sorted n t) (hp : p ∈ perms t) :
    p.1 < n ∧ ∃ A B C, cyc p.1 n = p.1 :: (A ++ p.2.1 :: (B ++ p.2.2 :: C)) ∧
      (cyc p.2.2 n).takeWhile (fun x => decide (x ≠ p.1)) = p.2.2 :: C := by
  obtain ⟨a, b, c⟩ := t
  obtain ⟨h1, h2, h3⟩ := ht
  simp only at h1 h2 h3
  have e0 : List.range' 0 a ++ a :: (List.range' (a + 1) (b - (a + 1)) ++ b :: (List.range' (b + 1) (c - (b + 1)) ++
      c :: List.range' (c + 1) (n - (c + 1)))) = List.range' 0 n := by
    have s1 := range_split 0 a n (by omega) (by omega)
    have s2 := range_split (a + 1) b n (by omega) (by omega)
    have s3 := range_split (b + 1) c n (by omega) (by omega)
    rw [s2, s3] at s1
    simp only [Nat.sub_zero] at s1
    exact s1.symm
  set R0 := List.range' 0 a
  set R1 := List.range' (a + 1) (b - (a + 1))
  set R2 := List.range' (b + 1) (c - (b + 1))
  set R3 := List.range' (c + 1) (n - (c + 1))
  have l0 : R0.length = a := by simp [R0]
  have l1 : R1.length = b - (a + 1) := by simp [R1]
  have l2 : R2.length = c - (b + 1) := by simp [R2]
  have cut : ∀ (X Y : List Nat), X ++ Y = List.range' 0 n → cyc X.length n = Y ++ X := by
    intro X Y h
    unfold cyc
    rw [List.range_eq_range', ← h]
    simp
  have ca : cyc a n = a :: (R1 ++ b :: (R2 ++ c :: R3)) ++ R0 := by
    have := cut R0 (a :: (R1 ++ b :: (R2 ++ c :: R3))) e0
    rwa [l0] at this
  have cb : cyc b n = b :: (R2 ++ c :: R3) ++ (R0 ++ a :: R1) := by
    have := cut (R0 ++ a :: R1) (b :: (R2 ++ c :: R3)) (by rw [← e0]; simp)
    rwa [show (R0 ++ a :: R1).length = b by simp only [List.length_append, List.length_cons, l0, l1]; omega] at this
  have cc : cyc c n = c :: R3 ++ (R0 ++ a :: (R1 ++ b :: R2)) := by
    have := cut (R0 ++ a :: (R1 ++ b :: R2)) (c :: R3) (by rw [← e0]; simp)
    rwa [show (R0 ++ a :: (R1 ++ b :: R2)).length = c by
      simp only [List.length_append, List.length_cons, l0, l1, l2]; omega] at this
  have m0 : ∀ x, x ∈ R0 ↔ x < a := by intro x; simp only [R0, List.mem_range'_1]; omega
  have m1 : ∀ x, x ∈ R1 ↔ a < x ∧ x < b := by intro x; simp only [R1, List.mem_range'_1]; omega
  have m2 : ∀ x, x ∈ R2 ↔ b < x ∧ x < c := by intro x; simp only [R2, List.mem_range'_1]; omega
  have m3 : ∀ x, x ∈ R3 ↔ c < x ∧ x < n := by intro x; simp only [R3, List.mem_range'_1]; omega
  simp only [perms, List.mem_cons, List.not_mem_nil, or_false] at hp
  rcases hp with rfl | rfl | rfl
  · refine ⟨by simp only; omega, R1, R2, R3 ++ R0, by simp only; rw [ca]; simp, ?_⟩
    simp only
    rw [cc]
    have : c :: R3 ++ (R0 ++ a :: (R1 ++ b :: R2)) = (c :: (R3 ++ R0)) ++ a :: (R1 ++ b :: R2) := by simp
    rw [this, takeWhile_stop]
    simp only [List.mem_cons, List.mem_append, m0, m3]
    omega
  · refine ⟨by simp only; omega, R2, R3 ++ R0, R1, by simp only; rw [cb]; simp, ?_⟩
    simp only
    rw [ca]
    have : a :: (R1 ++ b :: (R2 ++ c :: R3)) ++ R0 = (a :: R1) ++ b :: ((R2 ++ c :: R3) ++ R0) := by simp
    rw [this, takeWhile_stop]
    simp only [List.mem_cons, m1]
    omega
  · refine ⟨by simp only; omega, R3 ++ R0, R1, R2, by simp only; rw [cc]; simp, ?_⟩
    simp only
    rw [cb]
    have : b :: (R2 ++ c :: R3) ++ (R0 ++ a :: R1) = (b :: R2) ++ c :: (R3 ++ (R0 ++ a :: R1)) := by simp
    rw [this, takeWhile_stop]
    simp only [List.mem_cons, m2]
    omega

theorem triMatches_cases {t : Tri} {a b c : Nat} (h : triMatches t a b c = true) :
    t = (a, b, c) ∨ t = (c, a, b) ∨ t = (b, c, a) := by
  obtain ⟨x, y, z⟩ := t
  simp only [triMatches, Bool.or_eq_true, Bool.and_eq_true, decide_eq_true_eq] at h
  rcases h with (⟨⟨rfl, rfl⟩, rfl⟩ | ⟨⟨rfl, rfl⟩, rfl⟩) | ⟨⟨rfl, rfl⟩, rfl⟩ <;> simp

theorem triMatches_flow {A : Type} [AddCommGroup A] (φ : Nat → Nat → A) {t : Tri} {a b c : Nat}
    (h : triMatches t a b c = true) : flow φ (triVerts t) = flow φ [a, b, c] := by
  rcases triMatches_cases h with rfl | rfl | rfl
  · rfl
  · exact flow_rotate φ [c] [a, b]
  · exact flow_rotate φ [b, c] [a]

theorem triMatches_mem {t : Tri} {a b c : Nat} (h : triMatches t a b c = true) (v : Nat) :
    v ∈ triVerts t ↔ v = a ∨ v = b ∨ v = c := by
  rcases triMatches_cases h with rfl | rfl | rfl <;> simp [triVerts] <;> omega

theorem triMatches_last {n : Nat} {t : Tri} (ht : Sorted n t) {a b c b' c' : Nat} (h : triMatches t a b c = true)
    (h' : triMatches t a b' c' = true) : c = c' := by
  obtain ⟨h1, h2, -⟩ := ht
  rcases triMatches_cases h with rfl | rfl | rfl <;> rcases triMatches_cases h' with e | e | e <;>
    simp only [Prod.mk.injEq] at e h1 h2 <;> omega

theorem triExists_some {tris : List Tri} {a b c i : Nat} (h : triExists tris a b c = some i) :
    ∃ t, tris[i]? = some t ∧ triMatches t a b c = true := by
  unfold triExists at h
  rw [List.findIdx?_eq_some_iff_getElem] at h
  obtain ⟨hi, hm, -⟩ := h
  exact ⟨tris[i], by simp [hi], hm⟩

theorem triExists_self {tris : List Tri} {t : Tri} (ht : t ∈ tris) {a b c : Nat} (hm : triMatches t a b c = true) :
    ∃ i, triExists tris a b c = some i := by
  unfold triExists
  cases h : tris.findIdx? (fun t => triMatches t a b c) with
  | some i => exact ⟨i, rfl⟩
  | none =>
    rw [List.findIdx?_eq_none_iff] at h
    have := h t ht
    rw [hm] at this
    cases this

/-- What the loop over `last` finds: the triangles `first`, `mid`, `l` for the corners `l` of a polygon. -/
theorem fanFrom_spec (n : Nat) (tris : List Tri) (hs : ∀ t ∈ tris, Sorted n t) (f : Nat) :
    ∀ (lasts : List Nat) (mid : Nat), lasts.Nodup →
      ∃ ls : List Nat, ls.Sublist lasts ∧ (fanFrom tris f mid lasts).length = ls.length ∧
        (fanFrom tris f mid lasts).Nodup ∧
        (∀ i ∈ fanFrom tris f mid lasts, ∃ t m l, tris[i]? = some t ∧ triMatches t f m l = true ∧ l ∈ lasts) ∧
        (∀ (A : Type) [AddCommGroup A] (φ : Nat → Nat → A), Anti φ →
          ((fanFrom tris f mid lasts).map fun i => ((tris[i]?).toList.map fun t => flow φ (triVerts t)).sum).sum =
            flow φ (f :: mid :: ls)) ∧
        (∀ v, v ∈ (fanFrom tris f mid lasts).flatMap (fun i => (tris[i]?).toList.flatMap triVerts) ↔
          ls ≠ [] ∧ (v = f ∨ v = mid ∨ v ∈ ls)) := by
  intro lasts
  induction lasts with
  | nil =>
    intro mid _
    refine ⟨[], List.Sublist.slnil, rfl, List.nodup_nil, by simp [fanFrom], ?_, by simp [fanFrom]⟩
    intro A _ φ hφ
    rw [flow_two φ hφ]
    simp [fanFrom]
  | cons last lasts ih =>
    intro mid hnd
    obtain ⟨hnl, hnd'⟩ := List.nodup_cons.mp hnd
    unfold fanFrom
    cases he : triExists tris f mid last with
    | none =>
      simp only
      obtain ⟨ls, h1, h2, h3, h4, h5, h6⟩ := ih mid hnd'
      refine ⟨ls, h1.cons _, h2, h3, ?_, h5, h6⟩
      intro i hi
      obtain ⟨t, m, l, a, b, c⟩ := h4 i hi
      exact ⟨t, m, l, a, b, List.mem_cons_of_mem _ c⟩
    | some i =>
      simp only
      obtain ⟨t, hti, htm⟩ := triExists_some he
      obtain ⟨ls, h1, h2, h3, h4, h5, h6⟩ := ih last hnd'
      have hts : Sorted n t := hs t (List.mem_of_getElem? hti)
      refine ⟨last :: ls, h1.cons_cons _, by simp [h2], ?_, ?_, ?_, ?_⟩
      · refine List.nodup_cons.mpr ⟨?_, h3⟩
        intro hi
        obtain ⟨t', m, l, a, b, c⟩ := h4 i hi
        rw [hti] at a
        cases a
        have := triMatches_last hts htm b
        subst this
        exact hnl c
      · intro i' hi'
        rcases List.mem_cons.mp hi' with rfl | hi'
        · exact ⟨t, mid, last, hti, htm, List.mem_cons_self⟩
        · obtain ⟨t', m, l, a, b, c⟩ := h4 i' hi'
          exact ⟨t', m, l, a, b, List.mem_cons_of_mem _ c⟩
      · intro A _ φ hφ
        rw [List.map_cons, List.sum_cons, h5 A φ hφ, hti]
        simp only [Option.toList_some, List.map_cons, List.map_nil, List.sum_cons, List.sum_nil, add_zero]
        rw [triMatches_flow φ htm]
        exact flow_chord φ hφ f last [mid] ls
      · intro v
        rw [List.flatMap_cons, List.mem_append, h6, hti]
        simp only [Option.toList_some, List.flatMap_cons, List.flatMap_nil, List.append_nil, triMatches_mem htm]
        simp only [ne_eq, reduceCtorEq, not_false_eq_true, true_and, List.mem_cons]
        constructor
        · rintro ((h | h | h) | ⟨-, h | h | h⟩) <;> simp [h]
        · rintro (h | h | h | h)
          · exact Or.inl (Or.inl h)
          · exact Or.inl (Or.inr (Or.inl h))
          · exact Or.inl (Or.inr (Or.inr h))
          · exact Or.inr ⟨List.ne_nil_of_mem h, Or.inr (Or.inr h)⟩

theorem sublist_filter {ls L : List Nat} (h : ls.Sublist L) (hn : L.Nodup) : L.filter (fun v => decide (v ∈ ls)) = ls := by
  induction h with
  | slnil => rfl
  | cons a hs ih =>
    rename_i l1 l2
    obtain ⟨h1, h2⟩ := List.nodup_cons.mp hn
    rw [List.filter_cons_of_neg, ih h2]
    simp only [decide_eq_true_eq]
    exact fun h => h1 (hs.subset h)
  | cons_cons a hs ih =>
    rename_i l1 l2
    obtain ⟨h1, h2⟩ := List.nodup_cons.mp hn
    rw [List.filter_cons_of_pos (by simp)]
    congr 1
    conv_rhs => rw [← ih h2]
    apply List.filter_congr
    intro x hx
    have : x ≠ a := by rintro rfl; exact h1 hx
    simp [this]

/-- The vertices of a fan, in the order around the polygon from the first one. -/
theorem fan_filter {n f m l : Nat} {A B C ls : List Nat} (hcyc : cyc f n = f :: (A ++ m :: (B ++ l :: C))) (hf : f ≤ n)
    (hsub : ls.Sublist (l :: C)) (hP : Nat → Prop) [DecidablePred hP] (hiff : ∀ v, hP v ↔ (v = f ∨ v = m ∨ v ∈ ls)) :
    (cyc f n).filter (fun v => decide (hP v)) = f :: m :: ls := by
  have hnd := cyc_nodup f n hf
  rw [hcyc] at hnd ⊢
  obtain ⟨n1, n2⟩ := List.nodup_cons.mp hnd
  obtain ⟨n3, n4, n5⟩ := List.nodup_append.mp n2
  obtain ⟨n6, n7⟩ := List.nodup_cons.mp n4
  obtain ⟨n8, n9, n10⟩ := List.nodup_append.mp n7
  have sub : ∀ v ∈ ls, v ∈ l :: C := fun v hv => hsub.subset hv
  have dA : ∀ v ∈ A, ¬ hP v := by
    intro v hv
    rw [hiff]
    rintro (rfl | rfl | h)
    · exact n1 (List.mem_append_left _ hv)
    · exact n5 _ hv _ List.mem_cons_self rfl
    · exact n5 _ hv _ (List.mem_cons_of_mem _ (List.mem_append_right _ (sub v h))) rfl
  have dB : ∀ v ∈ B, ¬ hP v := by
    intro v hv
    rw [hiff]
    rintro (rfl | rfl | h)
    · exact n1 (List.mem_append_right _ (List.mem_cons_of_mem _ (List.mem_append_left _ hv)))
    · exact n6 (List.mem_append_left _ hv)
    · exact n10 _ hv _ (sub v h) rfl
  have dC : (l :: C).filter (fun v => decide (hP v)) = ls := by
    conv_rhs => rw [← sublist_filter hsub n9]
    apply List.filter_congr
    intro v hv
    have h1 : v ≠ f := by
      rintro rfl
      exact n1 (List.mem_append_right _ (List.mem_cons_of_mem _ (List.mem_append_right _ hv)))
    have h2 : v ≠ m := by
      rintro rfl
      exact n6 (List.mem_append_right _ hv)
    simp only [hiff, h1, h2, false_or]
  rw [List.filter_cons_of_pos (by simp [hiff]), List.filter_append, List.filter_eq_nil_iff.mpr (by simpa using dA),
    List.filter_cons_of_pos (by simp [hiff]), List.filter_append, List.filter_eq_nil_iff.mpr (by simpa using dB), dC]
  rfl

theorem cyc_rotation (s f n : Nat) (hs : s < n) (hf : f < n) : ∃ X Y, cyc f n = X ++ Y ∧ cyc s n = Y ++ X := by
  have hs' := cyc_eq s n (by omega)
  have hf' := cyc_eq f n (by omega)
  rcases Nat.le_total f s with h | h
  · refine ⟨List.range' f (s - f), List.range' s (n - s) ++ List.range' 0 f, ?_, ?_⟩
    · rw [hf']
      have e : n - f = (s - f) + (n - s) := by omega
      have e2 : f + (s - f) = s := by omega
      rw [e, ← List.range'_append_1, e2]
      simp
    · rw [hs']
      have e : s = f + (s - f) := by omega
      have : List.range' 0 s = List.range' 0 f ++ List.range' f (s - f) := by
        conv_lhs => rw [e]
        rw [← List.range'_append_1]
        simp
      rw [this]
      simp
  · refine ⟨List.range' f (n - f) ++ List.range' 0 s, List.range' s (f - s), ?_, ?_⟩
    · rw [hf']
      have e : f = s + (f - s) := by omega
      have : List.range' 0 f = List.range' 0 s ++ List.range' s (f - s) := by
        conv_lhs => rw [e]
        rw [← List.range'_append_1]
        simp
      rw [this]
      simp
    · rw [hs']
      have e : n - s = (f - s) + (n - f) := by omega
      have e2 : s + (f - s) = f := by omega
      rw [e, ← List.range'_append_1, e2]
      simp

theorem bestFan_spec (n : Nat) (tris : List Tri) (hs : ∀ t ∈ tris, Sorted n t) (hne : tris ≠ []) :
    (bestFan tris n).length ≠ 0 ∧ ∃ t ∈ tris, ∃ p ∈ perms t,
      bestFan tris n = fanFrom tris p.1 p.2.1 ((cyc p.2.2 n).takeWhile fun x => decide (x ≠ p.1)) := by
  have hnonempty : ∀ t ∈ tris, ∀ p ∈ perms t,
      (fanFrom tris p.1 p.2.1 ((cyc p.2.2 n).takeWhile fun x => decide (x ≠ p.1))).length ≠ 0 := by
    intro t ht p hp
    obtain ⟨-, A, B, C, -, h2⟩ := cyc_order (hs t ht) hp
    rw [h2]
    have hm : triMatches t p.1 p.2.1 p.2.2 = true := by
      simp only [perms, List.mem_cons, List.not_mem_nil, or_false] at hp
      rcases hp with rfl | rfl | rfl <;> simp [triMatches]
    obtain ⟨i, hi⟩ := triExists_self ht hm
    unfold fanFrom
    rw [hi]
    simp
  unfold bestFan
  have key : ∀ (ps : List Tri) (best : List Nat), (∀ p ∈ ps, ∃ t ∈ tris, p ∈ perms t) →
      ((best.length ≠ 0 ∧ ∃ t ∈ tris, ∃ p ∈ perms t,
        best = fanFrom tris p.1 p.2.1 ((cyc p.2.2 n).takeWhile fun x => decide (x ≠ p.1))) ∨ (best = [] ∧ ps ≠ [])) →
      ((ps.foldl (fun best p =>
        let my := fanFrom tris p.1 p.2.1 ((cyc p.2.2 n).takeWhile (· ≠ p.1))
        if best.isEmpty || my.length > best.length then my else best) best).length ≠ 0 ∧ ∃ t ∈ tris, ∃ p ∈ perms t,
        ps.foldl (fun best p =>
        let my := fanFrom tris p.1 p.2.1 ((cyc p.2.2 n).takeWhile (· ≠ p.1))
        if best.isEmpty || my.length > best.length then my else best) best =
          fanFrom tris p.1 p.2.1 ((cyc p.2.2 n).takeWhile fun x => decide (x ≠ p.1))) := by
    intro ps
    induction ps with
    | nil =>
      intro best _ hb
      rcases hb with hb | ⟨-, hb⟩
      · exact hb
      · exact absurd rfl hb
    | cons p ps ih =>
      intro best hps hb
      obtain ⟨t, ht, hpt⟩ := hps p List.mem_cons_self
      rw [List.foldl_cons]
      refine ih _ (fun q hq => hps q (List.mem_cons_of_mem _ hq)) (Or.inl ?_)
      simp only
      split
      · exact ⟨hnonempty t ht p hpt, t, ht, p, hpt, rfl⟩
      · next hc =>
        rcases hb with hb | ⟨hb, -⟩
        · exact hb
        · simp [hb] at hc
  refine key _ [] ?_ (Or.inr ⟨rfl, ?_⟩)
  · intro p hp
    rw [List.mem_flatMap] at hp
    exact hp
  · cases tris with
    | nil => exact absurd rfl hne
    | cons t ts => simp [perms]

/-- Erasing the elements at descending places. -/
theorem erase_desc {α : Type} (ds : List Nat) : ∀ (l : List α), ds.Pairwise (fun a b => b < a) → (∀ d ∈ ds, d < l.length) →
    l.Perm (ds.flatMap (fun d => (l[d]?).toList) ++ ds.foldl (fun l i => l.eraseIdx i) l) := by
  induction ds with
  | nil => intro l _ _; simp
  | cons d ds ih =>
    intro l hp hd
    obtain ⟨h1, h2⟩ := List.pairwise_cons.mp hp
    have hdl : d < l.length := hd d List.mem_cons_self
    have hlen : (l.eraseIdx d).length = l.length - 1 := List.length_eraseIdx_of_lt hdl
    have hih := ih (l.eraseIdx d) h2 (by
      intro x hx
      rw [hlen]
      have := h1 x hx
      omega)
    have hsame : ds.flatMap (fun x => ((l.eraseIdx d)[x]?).toList) = ds.flatMap (fun x => (l[x]?).toList) := by
      have : ∀ x ∈ ds, ((l.eraseIdx d)[x]?).toList = (l[x]?).toList := by
        intro x hx
        rw [List.getElem?_eraseIdx_of_lt (h1 x hx)]
      exact List.flatMap_congr this
    rw [hsame] at hih
    rw [List.flatMap_cons, List.foldl_cons, List.getElem?_eq_getElem hdl]
    simp only [Option.toList_some, List.cons_append]
    have hperm : l.Perm (l[d] :: l.eraseIdx d) := (List.getElem_cons_eraseIdx_perm hdl).symm
    exact hperm.trans (List.Perm.cons _ hih)

theorem seedLoop_spec (tris : List Tri) (pick : List Nat → Nat) (hpick : ∀ l, l ≠ [] → pick l ∈ l) (f : Nat) :
    ∀ (fan verts : List Nat), f ∈ verts → (∀ i ∈ fan, ∃ t, tris[i]? = some t ∧ f ∈ triVerts t) →
      ∃ s ∈ verts, seedLoop tris pick fan verts = .ok s := by
  intro fan
  induction fan with
  | nil =>
    intro verts hf _
    have hne : verts ≠ [] := List.ne_nil_of_mem hf
    refine ⟨pick verts, hpick _ hne, ?_⟩
    unfold seedLoop
    rw [if_neg (by simpa using hne)]
  | cons i fan ih =>
    intro verts hf hfan
    obtain ⟨t, ht, hft⟩ := hfan i List.mem_cons_self
    have hmem : f ∈ verts.filter (fun v => decide (v ∈ triVerts t)) := by
      rw [List.mem_filter]; exact ⟨hf, by simpa using hft⟩
    unfold seedLoop
    rw [ht]
    simp only
    split
    · exact ⟨_, (List.mem_filter.mp (hpick _ (List.ne_nil_of_mem hmem))).1, rfl⟩
    · obtain ⟨s, hs, e⟩ := ih _ hmem fun j hj => hfan j (List.mem_cons_of_mem _ hj)
      exact ⟨s, (List.mem_filter.mp hs).1, e⟩

theorem getD_mem {l : List Nat} {v : Nat} (h : v < l.length) : l.getD v 0 ∈ l := by
  rw [List.getD_eq_getElem?_getD, List.getElem?_eq_getElem h, Option.getD_some]
  exact List.getElem_mem h

/-- The fans together have the outline of the triangles. -/
theorem compress_spec (pick : List Nat → Nat) (hpick : ∀ l, l ≠ [] → pick l ∈ l) (vertices : List Nat) :
    ∀ (N : Nat) (tris : List Tri) (out : List (List Nat)), tris.length ≤ N → (∀ t ∈ tris, Sorted vertices.length t) →
      ∃ r, (∀ fuel, N ≤ fuel → compressLoop pick vertices fuel tris out = some (.ok (out ++ r))) ∧
        (∀ p ∈ r, 3 ≤ p.length) ∧ (∀ p ∈ r, ∀ v ∈ p, v ∈ vertices) ∧ triangles r = tris.length ∧
        ∀ (A : Type) [AddCommGroup A] (φ : Nat → Nat → A), Anti φ →
          flows φ r = (tris.map fun t => flow φ ((triVerts t).map fun v => vertices.getD v 0)).sum := by
  intro N
  induction N with
  | zero =>
    intro tris out hN _
    obtain rfl : tris = [] := by cases tris with
      | nil => rfl
      | cons t ts => simp at hN
    refine ⟨[], fun fuel _ => ?_, by simp, by simp, by simp [triangles], by simp [flows]⟩
    unfold compressLoop
    simp
  | succ N ih =>
    intro tris out hN hs
    by_cases hne : tris = []
    · subst hne
      refine ⟨[], fun fuel _ => ?_, by simp, by simp, by simp [triangles], by simp [flows]⟩
      unfold compressLoop
      simp
    · obtain ⟨hlen0, t, ht, p, hp, hfan⟩ := bestFan_spec vertices.length tris hs hne
      obtain ⟨hf, A, B, C, hcyc, hlasts⟩ := cyc_order (hs t ht) hp
      set n := vertices.length with hn
      set fan := bestFan tris n with hfandef
      have hlnd : ((cyc p.2.2 n).takeWhile fun x => decide (x ≠ p.1)).Nodup := by
        have h2 : p.2.2 ≤ n := by
          have : p.2.2 ∈ cyc p.1 n := by rw [hcyc]; simp
          have := (cyc_mem (Nat.le_of_lt hf)).mp this
          omega
        exact (List.takeWhile_sublist _).nodup (cyc_nodup _ _ h2)
      obtain ⟨ls, g1, g2, g3, g4, g5, g6⟩ := fanFrom_spec n tris hs p.1 _ p.2.1 hlnd
      rw [← hfan] at g2 g3 g4 g5 g6
      rw [hlasts] at g1
      have hlsne : ls ≠ [] := by
        intro h
        rw [h] at g2
        exact hlen0 (by simpa using g2)
      by_cases h1 : fan.length = 1
      · refine ⟨tris.map fun t => [vertices.getD t.1 0, vertices.getD t.2.1 0, vertices.getD t.2.2 0], ?_, ?_, ?_, ?_, ?_⟩
        · intro fuel hf'
          obtain ⟨fuel, rfl⟩ : ∃ k, fuel = k + 1 := ⟨fuel - 1, by omega⟩
          unfold compressLoop
          rw [if_neg (by simpa using hne)]
          simp only
          rw [← hn, ← hfandef, if_neg (by omega), if_pos h1]
        · intro q hq
          rw [List.mem_map] at hq
          obtain ⟨t, -, rfl⟩ := hq
          simp
        · intro q hq v hv
          rw [List.mem_map] at hq
          obtain ⟨t, ht, rfl⟩ := hq
          obtain ⟨s1, s2, s3⟩ := hs t ht
          simp only [List.mem_cons, List.not_mem_nil, or_false] at hv
          rcases hv with rfl | rfl | rfl
          · exact getD_mem (by omega)
          · exact getD_mem (by omega)
          · exact getD_mem (by omega)
        · unfold triangles
          rw [List.map_map]
          have : ((fun p : List Nat => p.length - 2) ∘ fun t : Tri =>
            [vertices.getD t.1 0, vertices.getD t.2.1 0, vertices.getD t.2.2 0]) = fun _ => 1 := by
            funext t; simp
          rw [this]
          simp
        · intro A _ φ _
          unfold flows
          rw [List.map_map]
          rfl
      · -- a fan of several triangles
        have hmemf : ∀ i ∈ fan, ∃ t, tris[i]? = some t ∧ p.1 ∈ triVerts t := by
          intro i hi
          obtain ⟨t, m, l, a, b, -⟩ := g4 i hi
          exact ⟨t, a, (triMatches_mem b _).mpr (Or.inl rfl)⟩
        obtain ⟨seed, hseed, hseedn⟩ : ∃ seed, findSeedVertex tris pick fan = .ok seed ∧ seed < n := by
          unfold findSeedVertex
          cases hfc : fan with
          | nil => rw [hfc] at hlen0; simp at hlen0
          | cons i is =>
            obtain ⟨t0, h0, h0f⟩ := hmemf i (by rw [hfc]; exact List.mem_cons_self)
            simp only
            rw [h0]
            simp only
            obtain ⟨s, hs1, hs2⟩ := seedLoop_spec tris pick hpick p.1 is (triVerts t0) h0f
              (fun j hj => hmemf j (by rw [hfc]; exact List.mem_cons_of_mem _ hj))
            refine ⟨s, hs2, ?_⟩
            obtain ⟨s1, s2, s3⟩ := hs t0 (List.mem_of_getElem? h0)
            simp only [triVerts, List.mem_cons, List.not_mem_nil, or_false] at hs1
            omega
        set members := fan.flatMap fun i => (tris[i]?).toList.flatMap triVerts with hmembers
        have hmem : ∀ v, v ∈ members ↔ (v = p.1 ∨ v = p.2.1 ∨ v ∈ ls) := by
          intro v
          rw [g6 v]
          exact ⟨fun h => h.2, fun h => ⟨hlsne, h⟩⟩
        set verts := (cyc seed n).filter fun v => decide (v ∈ members) with hverts
        have hff := fan_filter hcyc (Nat.le_of_lt hf) g1 (fun v => v ∈ members) hmem
        obtain ⟨X, Y, hX, hY⟩ := cyc_rotation seed p.1 n hseedn hf
        have hvlen : verts.length = ls.length + 2 := by
          have e1 : verts.length = ((cyc p.1 n).filter fun v => decide (v ∈ members)).length := by
            rw [hverts, hX, hY, List.filter_append, List.filter_append, List.length_append, List.length_append]
            omega
          rw [e1, hff]
          simp
        have hvflow : ∀ (A : Type) [AddCommGroup A] (φ : Nat → Nat → A), flow φ verts = flow φ (p.1 :: p.2.1 :: ls) := by
          intro A _ φ
          rw [← hff, hverts, hX, hY, List.filter_append, List.filter_append]
          exact flow_rotate φ _ _
        -- the other triangles
        set ds := fan.mergeSort fun a b => decide (b ≤ a) with hds
        have hdperm : ds.Perm fan := List.mergeSort_perm _ _
        have hdp : ds.Pairwise (fun a b => b < a) := by
          have h1 : ds.Pairwise (fun a b => decide (b ≤ a) = true) := by
            apply List.pairwise_mergeSort
            · intro a b c h1 h2
              simp only [decide_eq_true_eq] at h1 h2 ⊢
              omega
            · intro a b
              simp only [Bool.or_eq_true, decide_eq_true_eq]
              omega
          have h2 : ds.Nodup := hdperm.nodup_iff.mpr g3
          have h3 := h1.and h2
          refine h3.imp ?_
          rintro a b ⟨ha, hb⟩
          simp only [decide_eq_true_eq] at ha
          omega
        have hdl : ∀ d ∈ ds, d < tris.length := by
          intro d hd
          obtain ⟨t, h, -⟩ := hmemf d (hdperm.mem_iff.mp hd)
          exact (List.getElem?_eq_some_iff.mp h).1
        have herase := erase_desc ds tris hdp hdl
        set rest := ds.foldl (fun l i => l.eraseIdx i) tris with hrest
        have hrlen : rest.length + fan.length = tris.length := by
          have hl := herase.length_eq
          rw [List.length_append] at hl
          have : (ds.flatMap fun d => (tris[d]?).toList).length = ds.length := by
            have : ∀ xs : List Nat, (∀ x ∈ xs, x < tris.length) →
                (xs.flatMap fun d => (tris[d]?).toList).length = xs.length := by
              intro xs
              induction xs with
              | nil => intro _; rfl
              | cons x xs ihx =>
                intro h
                rw [List.flatMap_cons, List.length_append, List.getElem?_eq_getElem (h x List.mem_cons_self),
                  ihx fun y hy => h y (List.mem_cons_of_mem _ hy)]
                simp only [Option.toList_some, List.length_cons, List.length_nil]
                omega
            exact this ds hdl
          rw [this, hdperm.length_eq] at hl
          omega
        obtain ⟨r, q1, q2, q3, q4, q5⟩ := ih rest (out ++ [verts.map fun v => vertices.getD v 0]) (by omega) (by
          intro t ht
          exact hs t (herase.mem_iff.mpr (List.mem_append_right _ ht)))
        refine ⟨(verts.map fun v => vertices.getD v 0) :: r, ?_, ?_, ?_, ?_, ?_⟩
        · intro fuel hf'
          obtain ⟨fuel, rfl⟩ : ∃ k, fuel = k + 1 := ⟨fuel - 1, by omega⟩
          unfold compressLoop
          rw [if_neg (by simpa using hne)]
          simp only
          rw [← hn, ← hfandef, if_neg (by omega), if_neg h1, hseed]
          simp only
          rw [← hmembers, ← hverts, if_neg (by omega), ← hds, ← hrest, q1 fuel (by omega)]
          simp
        · intro q hq
          rcases List.mem_cons.mp hq with rfl | hq
          · have : ls.length ≠ 0 := by simpa using hlsne
            rw [List.length_map, hvlen]
            omega
          · exact q2 q hq
        · intro q hq v hv
          rcases List.mem_cons.mp hq with rfl | hq
          · rw [List.mem_map] at hv
            obtain ⟨x, hx, rfl⟩ := hv
            rw [hverts, List.mem_filter, cyc_mem (Nat.le_of_lt hseedn)] at hx
            exact getD_mem hx.1
          · exact q3 q hq v hv
        · unfold triangles at q4 ⊢
          rw [List.map_cons, List.sum_cons, q4, List.length_map, hvlen]
          omega
        · intro A _ φ hφ
          rw [flows_cons, q5 A φ hφ, flow_map, hvflow, ← g5 A _ (anti_comp hφ _)]
          have h1 := (herase.map fun t => flow φ ((triVerts t).map fun v => vertices.getD v 0)).sum_eq
          rw [h1, List.map_append, List.sum_append]
          congr 1
          have h2 : ((ds.flatMap fun d => (tris[d]?).toList).map fun t =>
              flow φ ((triVerts t).map fun v => vertices.getD v 0)).sum =
              (ds.map fun i => ((tris[i]?).toList.map fun t =>
                flow (fun u v => φ (vertices.getD u 0) (vertices.getD v 0)) (triVerts t)).sum).sum := by
            have : ∀ xs : List Nat, ((xs.flatMap fun d => (tris[d]?).toList).map fun t =>
              flow φ ((triVerts t).map fun v => vertices.getD v 0)).sum =
              (xs.map fun i => ((tris[i]?).toList.map fun t =>
                flow (fun u v => φ (vertices.getD u 0) (vertices.getD v 0)) (triVerts t)).sum).sum := by
              intro xs
              induction xs with
              | nil => rfl
              | cons x xs ihx =>
                rw [List.flatMap_cons, List.map_append, List.sum_append, ihx, List.map_cons, List.sum_cons]
                have e : (fun t => flow φ ((triVerts t).map fun v => vertices.getD v 0)) =
                    fun t => flow (fun u v => φ (vertices.getD u 0) (vertices.getD v 0)) (triVerts t) := by
                  funext t
                  exact flow_map φ _ _
                rw [e]
            exact this ds
          rw [h2]
          exact ((hdperm.map _).sum_eq).symm

end Verif.Faces
