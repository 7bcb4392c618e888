import Verif.Illum.MapsSpec

/-!
Helper lemmas on the light maps of a face.
-/

namespace Verif.Illum

variable {A : Type} [AddCommMonoid A]

/-- The light map saved for a style. -/
def mapOf (d : List (Lm A)) (t : Nat) : Option (Lm A) := d.find? fun m => decide (m.style = t)

omit [AddCommMonoid A] in
theorem mapOf_some {d : List (Lm A)}
    (hd : ∀ i j (hi : i < d.length) (hj : j < d.length), d[i].style = d[j].style → i = j) {k t : Nat}
    (hk : k < d.length) (h : d[k].style = t) : mapOf d t = some d[k] := by
  unfold mapOf
  rw [List.find?_eq_some_iff_getElem]
  refine ⟨by simp [h], k, hk, rfl, ?_⟩
  intro j hj
  have hne : d[j].style ≠ t := by
    intro h'
    have := hd j k (by omega) hk (by rw [h', h])
    omega
  simp [hne]

omit [AddCommMonoid A] in
theorem mapOf_none {d : List (Lm A)} {t : Nat} (h : ∀ m ∈ d, m.style ≠ t) : mapOf d t = none := by
  unfold mapOf
  rw [List.find?_eq_none]
  intro m hm
  simp [h m hm]

theorem lit_eq (d : List (Lm A)) (t i : Nat) : lit d t i = ((mapOf d t).map fun m => m.samples.getD i 0).getD 0 := by
  unfold lit mapOf
  cases d.find? fun m => decide (m.style = t) <;> rfl

theorem bounced_eq (d : List (Lm A)) (t : Nat) : bounced d t = ((mapOf d t).map (·.bounce)).getD 0 := by
  unfold bounced mapOf
  cases d.find? fun m => decide (m.style = t) <;> rfl

/-- `k` is the light map to write to for style `s`. -/
def Slot (d : List (Lm A)) (s k : Nat) : Prop :=
  ∃ hk : k < d.length, d[k].style = s ∨ (d[k].style = invalid ∧ ∀ m ∈ d, m.style ≠ s)

/-- What is in the slot is the light of the style so far. -/
theorem slot_lit {n : Nat} {d : List (Lm A)} {s k : Nat} (hg : Good n d) (hs : Slot d s k) :
    ∃ m, d[k]? = some m ∧ m.samples.length = n ∧ (m.style = s ∨ m.style = invalid) ∧
      (∀ i, lit d s i = m.samples.getD i 0) ∧ bounced d s = m.bounce := by
  obtain ⟨hk, h⟩ := hs
  refine ⟨d[k], List.getElem?_eq_getElem hk, hg.size _ (List.getElem_mem hk), ?_, ?_, ?_⟩
  · rcases h with h | h
    · exact Or.inl h
    · exact Or.inr h.1
  · intro i
    rw [lit_eq]
    rcases h with h | h
    · rw [mapOf_some hg.distinct hk h]; rfl
    · rw [mapOf_none h.2, (hg.blank _ (List.getElem_mem hk) h.1).1]
      by_cases hi : i < n
      · simp [hi]
      · simp [hi]
  · rw [bounced_eq]
    rcases h with h | h
    · rw [mapOf_some hg.distinct hk h]; rfl
    · rw [mapOf_none h.2, (hg.blank _ (List.getElem_mem hk) h.1).2]; rfl

/-- Writing to the slot and saving it changes the light of that style and of no other. -/
theorem slot_write {n : Nat} {d : List (Lm A)} {s k : Nat} (hg : Good n d) (hs : Slot d s k) (hsi : s ≠ invalid)
    {m' : Lm A} (hst : m'.style = s) (hlen : m'.samples.length = n) :
    Good n (d.set k m') ∧ Slot (d.set k m') s k ∧ mapOf (d.set k m') s = some m' ∧
      ∀ t, t ≠ invalid → t ≠ s → mapOf (d.set k m') t = mapOf d t := by
  obtain ⟨hk, h⟩ := hs
  have hother : ∀ j (hj : j < d.length), j ≠ k → d[j].style ≠ s := by
    intro j hj hjk hjs
    rcases h with h | h
    · exact hjk (hg.distinct j k hj hk (by rw [hjs, h]))
    · exact h.2 _ (List.getElem_mem hj) hjs
  have hdist : ∀ i j (hi : i < (d.set k m').length) (hj : j < (d.set k m').length),
      (d.set k m')[i].style = (d.set k m')[j].style → i = j := by
    intro i j hi hj he
    rw [List.length_set] at hi hj
    rw [List.getElem_set, List.getElem_set] at he
    by_cases h1 : k = i <;> by_cases h2 : k = j
    · omega
    · rw [if_pos h1, if_neg h2, hst] at he
      exact absurd he.symm (hother j hj (Ne.symm h2))
    · rw [if_neg h1, if_pos h2, hst] at he
      exact absurd he (hother i hi (Ne.symm h1))
    · rw [if_neg h1, if_neg h2] at he
      exact hg.distinct i j hi hj he
  have hk' : k < (d.set k m').length := by rw [List.length_set]; exact hk
  have hget : (d.set k m')[k] = m' := by simp
  refine ⟨⟨hdist, ?_, ?_⟩, ⟨hk', Or.inl (by rw [hget, hst])⟩, ?_, ?_⟩
  · intro m hm
    rcases List.mem_or_eq_of_mem_set hm with h' | h'
    · exact hg.size m h'
    · rw [h']; exact hlen
  · intro m hm hinv
    rcases List.mem_or_eq_of_mem_set hm with h' | h'
    · exact hg.blank m h' hinv
    · exact absurd (hst.symm.trans (h' ▸ hinv)) hsi
  · rw [mapOf_some hdist hk' (by rw [hget, hst]), hget]
  · intro t hti hts
    by_cases hex : ∃ j, ∃ hj : j < d.length, d[j].style = t
    · obtain ⟨j, hj, hjt⟩ := hex
      have hjk : k ≠ j := by
        intro hkj
        subst hkj
        rcases h with h | h
        · exact hts (hjt.symm.trans h)
        · exact hti (hjt.symm.trans h.1)
      have hj' : j < (d.set k m').length := by rw [List.length_set]; exact hj
      have hgj : (d.set k m')[j] = d[j] := by rw [List.getElem_set, if_neg hjk]
      rw [mapOf_some hdist hj' (by rw [hgj, hjt]), hgj, mapOf_some hg.distinct hj hjt]
    · have hn : ∀ m ∈ d, m.style ≠ t := by
        intro m hm hmt
        obtain ⟨j, hj, rfl⟩ := List.getElem_of_mem hm
        exact hex ⟨j, hj, hmt⟩
      rw [mapOf_none hn, mapOf_none]
      intro m hm
      rcases List.mem_or_eq_of_mem_set hm with h' | h'
      · exact hn m h'
      · rw [h', hst]; exact Ne.symm hts

theorem allocOrClear_blank {n : Nat} {m : Lm A} (h : m.samples = List.replicate n 0 ∧ m.bounce = 0)
    (hs : m.style = invalid) : allocOrClear n m = m := by
  obtain ⟨st, sa, bo⟩ := m
  simp only at h hs
  obtain ⟨rfl, rfl⟩ := h
  unfold allocOrClear
  simp only [List.length_replicate, hs]
  split_ifs <;> simp

omit [AddCommMonoid A] in
theorem modify_same {d : List (Lm A)} {k : Nat} {f : Lm A → Lm A} (h : ∀ hk : k < d.length, f d[k] = d[k]) :
    d.modify k f = d := by
  apply List.ext_getElem (by simp)
  intro i h1 h2
  rw [List.getElem_modify]
  split_ifs with hki
  · subst hki; exact h _
  · rfl

omit [AddCommMonoid A] in
theorem set_same {d : List (Lm A)} {k : Nat} {m : Lm A} (h : d[k]? = some m) : d.set k m = d := by
  apply List.ext_getElem (by simp)
  intro i h1 h2
  rw [List.getElem_set]
  split_ifs with hki
  · subst hki
    rw [List.getElem?_eq_getElem h2] at h
    exact (Option.some.inj h).symm
  · rfl

/-- The light map that is returned is the slot for the style, and no light is lost. -/
theorem forStyle_spec {n : Nat} {d : List (Lm A)} {s : Nat} (hg : Good n d) (hs : s ≠ invalid) :
    Good n (forStyle n s d).1 ∧ Slot (forStyle n s d).1 s (forStyle n s d).2 ∧
      ∀ t, t ≠ invalid → mapOf (forStyle n s d).1 t = mapOf d t := by
  unfold forStyle
  cases h1 : d.findIdx? fun m => decide (m.style = s) with
  | some k =>
    simp only
    rw [List.findIdx?_eq_some_iff_getElem] at h1
    obtain ⟨hk, h1, _⟩ := h1
    exact ⟨hg, ⟨hk, Or.inl (of_decide_eq_true h1)⟩, fun t _ => trivial⟩
  | none =>
    rw [List.findIdx?_eq_none_iff] at h1
    have hn : ∀ m ∈ d, m.style ≠ s := fun m hm => of_decide_eq_false (h1 m hm)
    cases h2 : d.findIdx? fun m => decide (m.style = invalid) with
    | some k =>
      simp only
      rw [List.findIdx?_eq_some_iff_getElem] at h2
      obtain ⟨hk, h2, _⟩ := h2
      have hinv := of_decide_eq_true h2
      have e : d.modify k (allocOrClear n) = d :=
        modify_same fun hk' => allocOrClear_blank (hg.blank _ (List.getElem_mem hk') hinv) hinv
      rw [e]
      exact ⟨hg, ⟨hk, Or.inr ⟨hinv, hn⟩⟩, fun t _ => rfl⟩
    | none =>
      simp only
      rw [List.findIdx?_eq_none_iff] at h2
      have hni : ∀ m ∈ d, m.style ≠ invalid := fun m hm => of_decide_eq_false (h2 m hm)
      have e : allocOrClear n (⟨invalid, [], 0⟩ : Lm A) = ⟨invalid, List.replicate n 0, 0⟩ := by simp [allocOrClear]
      rw [e]
      have hdist : ∀ i j (hi : i < (d ++ [(⟨invalid, List.replicate n 0, 0⟩ : Lm A)]).length)
          (hj : j < (d ++ [(⟨invalid, List.replicate n 0, 0⟩ : Lm A)]).length),
          (d ++ [(⟨invalid, List.replicate n 0, 0⟩ : Lm A)])[i].style =
            (d ++ [(⟨invalid, List.replicate n 0, 0⟩ : Lm A)])[j].style → i = j := by
        intro i j hi hj he
        simp only [List.length_append, List.length_singleton] at hi hj
        by_cases hi' : i < d.length <;> by_cases hj' : j < d.length
        · rw [List.getElem_append_left hi', List.getElem_append_left hj'] at he
          exact hg.distinct i j hi' hj' he
        · rw [List.getElem_append_left hi', List.getElem_append_right (by omega)] at he
          simp only [List.getElem_singleton] at he
          exact absurd he (hni _ (List.getElem_mem hi'))
        · rw [List.getElem_append_left hj', List.getElem_append_right (by omega)] at he
          simp only [List.getElem_singleton] at he
          exact absurd he.symm (hni _ (List.getElem_mem hj'))
        · omega
      refine ⟨⟨hdist, ?_, ?_⟩, ⟨by simp, Or.inr ⟨by simp, ?_⟩⟩, ?_⟩
      · intro m hm
        simp only [List.mem_append, List.mem_singleton] at hm
        rcases hm with hm | rfl
        · exact hg.size m hm
        · simp
      · intro m hm hi
        simp only [List.mem_append, List.mem_singleton] at hm
        rcases hm with hm | rfl
        · exact hg.blank m hm hi
        · exact ⟨rfl, rfl⟩
      · intro m hm
        simp only [List.mem_append, List.mem_singleton] at hm
        rcases hm with hm | rfl
        · exact hn m hm
        · exact Ne.symm hs
      · intro t ht
        unfold mapOf
        rw [List.find?_append]
        have : [(⟨invalid, List.replicate n 0, 0⟩ : Lm A)].find? (fun m => decide (m.style = t)) = none := by
          simp [Ne.symm ht]
        rw [this, Option.or_none]

omit [AddCommMonoid A] in
theorem saved_style {s : Nat} {m : Lm A} (h : m.style = s ∨ m.style = invalid) : (saved s m).style = s := by
  unfold saved
  rcases h with h | h
  · split_ifs
    · rfl
    · exact h
  · rw [if_pos h]

omit [AddCommMonoid A] in
theorem saved_samples (s : Nat) (m : Lm A) : (saved s m).samples = m.samples ∧ (saved s m).bounce = m.bounce := by
  unfold saved; split_ifs <;> exact ⟨rfl, rfl⟩

theorem getD_modify (l : List A) (i j : Nat) (f : A → A) (hi : i < l.length) :
    (l.modify i f).getD j 0 = if i = j then f (l.getD j 0) else l.getD j 0 := by
  rw [List.getD_eq_getElem?_getD, List.getElem?_modify, List.getD_eq_getElem?_getD]
  by_cases h : i = j
  · subst h
    simp [hi]
  · simp [h]

theorem lit_of_map {d d' : List (Lm A)} {t : Nat} (h : mapOf d' t = mapOf d t) (i : Nat) :
    lit d' t i = lit d t i ∧ bounced d' t = bounced d t := by
  rw [lit_eq, lit_eq, bounced_eq, bounced_eq, h]
  exact ⟨rfl, rfl⟩

end Verif.Illum
