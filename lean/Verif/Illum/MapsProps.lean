import Verif.Illum.MapsLemmas

/-!
C158: the light of each style goes into the light map of that style, all of it, and nowhere else.
-/

namespace Verif.Illum

variable {A : Type} [AddCommMonoid A]

omit [AddCommMonoid A] in
theorem casts_desired (style : Nat) (r : Hit A) (t : Nat) : Casts style r t ↔ desired style r = t := by
  unfold Casts desired
  by_cases h : style = 0
  · simp [h]
  · simp [h]

theorem addTo_spec {n : Nat} {d : List (Lm A)} {s k i : Nat} (c : A) (hg : Good n d) (hs : Slot d s k)
    (hsi : s ≠ invalid) (hi : i < n) :
    ∃ d', writeMap k i (fun m => saved s (addTo i c m)) d = .ok d' ∧ Good n d' ∧ Slot d' s k ∧
      (∀ j, lit d' s j = lit d s j + if i = j then c else 0) ∧ bounced d' s = bounced d s + c ∧
      ∀ t, t ≠ invalid → t ≠ s → mapOf d' t = mapOf d t := by
  obtain ⟨m, hm, hlen, hst, hlit, hb⟩ := slot_lit hg hs
  have hss := saved_samples s (addTo i c m)
  have hw := slot_write (m' := saved s (addTo i c m)) hg hs hsi (saved_style hst)
    (by rw [hss.1]; unfold addTo; simp [hlen])
  refine ⟨d.set k (saved s (addTo i c m)), ?_, hw.1, hw.2.1, ?_, ?_, hw.2.2.2⟩
  · unfold writeMap; rw [hm]; simp only; rw [if_pos (by omega)]
  · intro j
    rw [lit_eq, hw.2.2.1, Option.map_some, Option.getD_some, hss.1, hlit]
    unfold addTo
    simp only
    rw [getD_modify _ _ _ _ (by omega)]
    split_ifs
    · rfl
    · rw [add_zero]
  · rw [bounced_eq, hw.2.2.1, Option.map_some, Option.getD_some, hss.2, hb]
    rfl

theorem addRays_spec (n style : Nat) (rs : List (Hit A)) :
    ∀ (cached k : Nat) (d : List (Lm A)), Good n d → Slot d cached k →
      (∀ r ∈ rs, r.index < n ∧ desired style r ≠ invalid) →
      ∃ d', addRays n style cached k d rs = .ok d' ∧ Good n d' ∧
        ∀ t, t ≠ invalid → (∀ i, lit d' t i = lit d t i + arrives style rs t i) ∧
          bounced d' t = bounced d t + arrivesAll style rs t := by
  induction rs with
  | nil =>
    intro cached k d hg _ _
    exact ⟨d, rfl, hg, fun t _ => ⟨fun i => by simp [arrives], by simp [arrivesAll]⟩⟩
  | cons r rs ih =>
    intro cached k d hg hs hr
    obtain ⟨hri, hrd⟩ := hr r (by simp)
    have hsw : Good n (switch n (desired style r) cached k d).1 ∧
        Slot (switch n (desired style r) cached k d).1 (desired style r) (switch n (desired style r) cached k d).2 ∧
        ∀ t, t ≠ invalid → mapOf (switch n (desired style r) cached k d).1 t = mapOf d t := by
      unfold switch
      by_cases h : desired style r = cached
      · rw [if_pos h]; exact ⟨hg, h ▸ hs, fun t _ => rfl⟩
      · rw [if_neg h]; exact forStyle_spec hg hrd
    obtain ⟨hg1, hs1, hm1⟩ := hsw
    obtain ⟨d2, hw, hg2, hs2, hl2, hb2, ho2⟩ := addTo_spec r.color hg1 hs1 hrd hri
    obtain ⟨d3, h3, hg3, ht3⟩ := ih (desired style r) _ d2 hg2 hs2 fun q hq => hr q (by simp [hq])
    refine ⟨d3, ?_, hg3, ?_⟩
    · unfold addRays
      simp only [hw, Outcome.ok_bind, h3]
    · intro t ht
      obtain ⟨hl3, hb3⟩ := ht3 t ht
      have hcast : Casts style r t ↔ desired style r = t := casts_desired style r t
      by_cases hd : desired style r = t
      · have hc := hcast.2 hd
        constructor
        · intro i
          have e := (lit_of_map (hm1 t ht) i).1
          have hl2' := hl2 i
          rw [hd] at hl2' e
          rw [hl3 i, hl2', e]
          unfold arrives
          simp only [List.map_cons, List.sum_cons, hc, true_and]
          rw [add_assoc]
        · have e := (lit_of_map (hm1 t ht) 0).2
          rw [hd] at hb2 e
          rw [hb3, hb2, e]
          unfold arrivesAll
          simp only [List.map_cons, List.sum_cons, hc, if_true]
          rw [add_assoc]
      · have hc : ¬ Casts style r t := fun h => hd (hcast.1 h)
        have em := ho2 t ht (Ne.symm hd)
        constructor
        · intro i
          rw [hl3 i, (lit_of_map em i).1, (lit_of_map (hm1 t ht) i).1]
          unfold arrives
          simp only [List.map_cons, List.sum_cons, hc, false_and, if_false, zero_add]
        · rw [hb3, (lit_of_map em 0).2, (lit_of_map (hm1 t ht) 0).2]
          unfold arrivesAll
          simp only [List.map_cons, List.sum_cons, hc, if_false, zero_add]

/-- C158, partial: no style is the reserved number 65535. After an entity or a sun has lit a face, each sample holds, in
each style, what it held before and the sum of the rays that arrived there in that style. -/
theorem light_by_style_partial (n style : Nat) (d : List (Lm A)) (rs : List (Hit A)) (hg : Good n d)
    (hs : style ≠ 65535) (hr : ∀ r ∈ rs, r.index < n ∧ r.dynamic ≠ 65535) :
    ∃ d', lightFace n style d rs = .ok d' ∧ Good n d' ∧
      ∀ t, t ≠ 65535 → (∀ i, lit d' t i = lit d t i + arrives style rs t i) ∧
        bounced d' t = bounced d t + arrivesAll style rs t := by
  obtain ⟨hg1, hs1, hm1⟩ := forStyle_spec hg hs
  obtain ⟨d', h, hg', ht'⟩ := addRays_spec n style rs style _ _ hg1 hs1 (fun r hq => by
    obtain ⟨h1, h2⟩ := hr r hq
    refine ⟨h1, ?_⟩
    unfold desired
    split_ifs
    · exact h2
    · exact hs)
  refine ⟨d', h, hg', fun t ht => ⟨fun i => ?_, ?_⟩⟩
  · rw [(ht' t ht).1 i, (lit_of_map (hm1 t ht) i).1]
  · rw [(ht' t ht).2, (lit_of_map (hm1 t ht) 0).2]

/-- The light maps of a face that has not been lit yet. -/
theorem good_nil (n : Nat) : Good n ([] : List (Lm A)) := by
  refine ⟨?_, ?_, ?_⟩
  · intro i j hi; exact absurd hi (by simp)
  · intro m hm; exact absurd hm (by simp)
  · intro m hm; exact absurd hm (by simp)

/-! ### Surface lights and `_addmin` -/

theorem addAll_spec (w : Nat → A → Lm A → Lm A) (k n : Nat) (rs : List (Nat × A))
    (hwl : ∀ i c m, (w i c m).samples = m.samples.modify i (· + c)) (hws : ∀ i c m, (w i c m).style = m.style) :
    ∀ (d : List (Lm A)) (m : Lm A), d[k]? = some m → m.samples.length = n → (∀ r ∈ rs, r.1 < n) →
      ∃ m', addAll w k d rs = .ok (d.set k m') ∧ m'.style = m.style ∧ m'.samples.length = n ∧
        ∀ i, m'.samples.getD i 0 = m.samples.getD i 0 + listed rs i := by
  induction rs with
  | nil =>
    intro d m hm hl _
    refine ⟨m, ?_, rfl, hl, fun i => by simp [listed]⟩
    unfold addAll
    rw [set_same hm]
  | cons r rs ih =>
    intro d m hm hl hr
    obtain ⟨i, c⟩ := r
    have hi : i < n := hr (i, c) (by simp)
    have hk : k < d.length := by
      by_contra h
      rw [List.getElem?_eq_none (by omega)] at hm
      exact absurd hm (by simp)
    have hm2 : (d.set k (w i c m))[k]? = some (w i c m) := by simp [hk]
    obtain ⟨m', h', hst, hl', hs'⟩ := ih (d.set k (w i c m)) (w i c m) hm2 (by rw [hwl]; simp [hl])
      fun q hq => hr q (by simp [hq])
    refine ⟨m', ?_, by rw [hst, hws], hl', ?_⟩
    · unfold addAll writeMap
      rw [hm]
      simp only
      rw [if_pos (by omega), Outcome.ok_bind, h', List.set_set]
    · intro j
      rw [hs' j, hwl, getD_modify _ _ _ _ (by omega)]
      unfold listed
      simp only [List.map_cons, List.sum_cons]
      split_ifs
      · rw [add_assoc]
      · rw [zero_add]

theorem save_spec {n s k : Nat} {d : List (Lm A)} {m' : Lm A} (hg : Good n d) (hs : Slot d s k) (hsi : s ≠ invalid)
    (hst : m'.style = s ∨ m'.style = invalid) (hlen : m'.samples.length = n) :
    Good n (saveAt k s true (d.set k m')) ∧ (∀ i, lit (saveAt k s true (d.set k m')) s i = m'.samples.getD i 0) ∧
      ∀ t, t ≠ invalid → t ≠ s → mapOf (saveAt k s true (d.set k m')) t = mapOf d t := by
  have hk := hs.1
  have e : saveAt k s true (d.set k m') = d.set k (saved s m') := by
    unfold saveAt
    simp only [if_true]
    apply List.ext_getElem (by simp)
    intro i h1 h2
    rw [List.getElem_modify, List.getElem_set, List.getElem_set]
    split_ifs <;> rfl
  have hss := saved_samples s m'
  have hw := slot_write (m' := saved s m') hg hs hsi (saved_style hst) (by rw [hss.1]; exact hlen)
  rw [e]
  refine ⟨hw.1, fun i => ?_, hw.2.2.2⟩
  rw [lit_eq, hw.2.2.1, Option.map_some, Option.getD_some, hss.1]

theorem addAll_style_spec (w : Nat → A → Lm A → Lm A)
    (hwl : ∀ i c m, (w i c m).samples = m.samples.modify i (· + c)) (hws : ∀ i c m, (w i c m).style = m.style)
    (n style : Nat) (d : List (Lm A)) (rs : List (Nat × A)) (hg : Good n d) (hs : style ≠ invalid)
    (hr : ∀ r ∈ rs, r.1 < n) :
    ∃ d', (addAll w (forStyle n style d).2 (forStyle n style d).1 rs) = .ok d' ∧
      Good n (saveAt (forStyle n style d).2 style (!rs.isEmpty) d') ∧
      (∀ i, lit (saveAt (forStyle n style d).2 style (!rs.isEmpty) d') style i = lit d style i + listed rs i) ∧
      ∀ t i, t ≠ invalid → t ≠ style →
        lit (saveAt (forStyle n style d).2 style (!rs.isEmpty) d') t i = lit d t i := by
  obtain ⟨hg1, hs1, hm1⟩ := forStyle_spec hg hs
  obtain ⟨m, hm, hlen, hst, hlit, _⟩ := slot_lit hg1 hs1
  obtain ⟨m', h', hst', hl', hs'⟩ := addAll_spec w _ n rs hwl hws _ m hm hlen hr
  refine ⟨_, h', ?_⟩
  cases rs with
  | nil =>
    have e : (forStyle n style d).1.set (forStyle n style d).2 m' = (forStyle n style d).1 := by
      unfold addAll at h'
      injection h' with h'
      exact h'.symm
    rw [e]
    refine ⟨hg1, fun i => ?_, fun t i ht _ => ?_⟩
    · simp only [List.isEmpty_nil, Bool.not_true, saveAt]
      rw [if_neg (by simp), (lit_of_map (hm1 style hs) i).1]
      simp [listed]
    · simp only [List.isEmpty_nil, Bool.not_true, saveAt]
      rw [if_neg (by simp), (lit_of_map (hm1 t ht) i).1]
  | cons r rs =>
    simp only [List.isEmpty_cons, Bool.not_false]
    obtain ⟨a, b, c⟩ := save_spec (m' := m') hg1 hs1 hs (by rw [hst']; exact hst) hl'
    refine ⟨a, fun i => ?_, fun t i ht hts => ?_⟩
    · rw [b i, hs' i, ← hlit i, (lit_of_map (hm1 style hs) i).1]
    · rw [(lit_of_map (c t ht hts) i).1, (lit_of_map (hm1 t ht) i).1]

/-- C158, partial in the same way: a point of a surface light. -/
theorem surface_by_style_partial (n style : Nat) (d : List (Lm A)) (rs : List (Nat × A)) (hg : Good n d)
    (hs : style ≠ 65535) (hr : ∀ r ∈ rs, r.1 < n) :
    ∃ d', surfaceLight n style d rs = .ok d' ∧ Good n d' ∧ (∀ i, lit d' style i = lit d style i + listed rs i) ∧
      ∀ t i, t ≠ 65535 → t ≠ style → lit d' t i = lit d t i := by
  obtain ⟨d', h, hrest⟩ := addAll_style_spec addTo (fun _ _ _ => rfl) (fun _ _ _ => rfl) n style d rs hg hs hr
  refine ⟨_, ?_, hrest⟩
  unfold surfaceLight
  simp only [h, Outcome.ok_bind, Outcome.pure_eq]

/-- C158, partial in the same way: minimum light with `_addmin`. -/
theorem addmin_by_style_partial (n style : Nat) (d : List (Lm A)) (rs : List (Nat × A)) (hg : Good n d)
    (hs : style ≠ 65535) (hr : ∀ r ∈ rs, r.1 < n) :
    ∃ d', addMinLight n style d rs = .ok d' ∧ Good n d' ∧ (∀ i, lit d' style i = lit d style i + listed rs i) ∧
      ∀ t i, t ≠ 65535 → t ≠ style → lit d' t i = lit d t i := by
  obtain ⟨d', h, hrest⟩ := addAll_style_spec tintTo (fun _ _ _ => rfl) (fun _ _ _ => rfl) n style d rs hg hs hr
  refine ⟨_, ?_, hrest⟩
  unfold addMinLight
  simp only [h, Outcome.ok_bind, Outcome.pure_eq]

/-- A face with two samples: a light of style 0 with one ray through a dynamic shadow of style 7, then a light of
style 3. -/
example : Good 2 ([] : List (Lm Nat)) ∧
    ((do
      let d ← lightFace 2 0 [] [⟨0, 0, 10⟩, ⟨1, 7, 20⟩, ⟨1, 0, 5⟩]
      lightFace 2 3 d [⟨0, 0, 4⟩] : Outcome (List (Lm Nat))).bind fun d =>
        .ok (d.map fun m => (m.style, m.samples))) = .ok [(0, [10, 5]), (7, [0, 20]), (3, [4, 0])] := by
  refine ⟨good_nil 2, by decide⟩

/-- C158: the number 65535 is taken for "not saved". A dynamic shadow with that style, which `_switchshadstyle` allows,
leaves its light behind in the light map that the next style gets: here a light of style 5 of brightness 1 shows 21. -/
theorem reserved_style_leaks :
    ((do
      let d ← lightFace 1 0 [] [⟨0, 65535, 20⟩]
      lightFace 1 5 d [⟨0, 0, 1⟩] : Outcome (List (Lm Nat))).bind fun d => .ok (lit d 5 0)) = .ok 21 := by
  decide

end Verif.Illum
