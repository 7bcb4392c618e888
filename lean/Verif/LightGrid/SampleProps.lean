import Mathlib.Tactic.Positivity
import Mathlib.Data.List.Perm.Subperm
import Mathlib.Data.List.TakeWhile
import Verif.LightGrid.GridProps

/-!
Properties of the light at one grid point: the sum per style (C125), and scale and limits
(C126).
-/

namespace Verif.LightGrid

open Verif.Stream Verif.Light

/-! ### Slots -/

/-- All light of one style in some contributions. -/
def total (cs : List (Col × Int)) (style : Int) (i : Fin 3) : ℚ :=
  ((cs.filter fun c => c.2 = style).map fun c => c.1 i).sum

/-- The slots: some used ones with different styles, and unused ones. -/
def Slots (us : Samples) (l : Samples) : Prop :=
  us.length ≤ 4 ∧ l = us ++ List.replicate (4 - us.length) ({} : Sample) ∧ (∀ s ∈ us, s.used = true) ∧
    (us.map (·.style)).Nodup

/-- The slots with light added to one style. -/
def bump (color : Col) (style : Int) (us : Samples) : Samples :=
  us.map fun s => if s.style = style then { s with color := fun i => s.color i + color i } else s

theorem bump_other {color : Col} {style : Int} : ∀ {us : Samples}, style ∉ us.map (·.style) → bump color style us = us
  | [], _ => rfl
  | s :: us, h => by
    simp only [List.map_cons, List.mem_cons, not_or] at h
    unfold bump
    rw [List.map_cons, if_neg (fun e => h.1 e.symm)]
    congr 1
    exact bump_other h.2

theorem addToSlot_cons (color : Col) (style : Int) (s : Sample) (r : Samples) :
    addToSlot color style (s :: r) =
      if !s.used then some ({ used := true, style := style, color := color } :: r)
      else if s.style = style then some ({ s with color := fun i => s.color i + color i } :: r)
      else (addToSlot color style r).map (s :: ·) := rfl

theorem addToSlot_in {color : Col} {style : Int} (r : Samples) : ∀ {us : Samples}, (∀ s ∈ us, s.used = true) →
    (us.map (·.style)).Nodup → style ∈ us.map (·.style) →
    addToSlot color style (us ++ r) = some (bump color style us ++ r)
  | [], _, _, h => by simp at h
  | s :: us, hu, hn, h => by
    simp only [List.map_cons, List.nodup_cons, List.mem_cons] at hn h
    rw [List.cons_append, addToSlot_cons]
    have := hu s (by simp)
    rw [if_neg (by simp [this])]
    by_cases e : s.style = style
    · rw [if_pos e]
      unfold bump
      rw [List.map_cons, if_pos e]
      have : bump color style us = us := bump_other (by rw [← e]; exact hn.1)
      unfold bump at this
      rw [this]
      rfl
    · rw [if_neg e, addToSlot_in r (fun s hs => hu s (List.mem_cons_of_mem _ hs)) hn.2
        (h.resolve_left fun h => e h.symm)]
      unfold bump
      rw [List.map_cons, if_neg e]
      rfl

theorem addToSlot_out {color : Col} {style : Int} (r : Samples) : ∀ {us : Samples}, (∀ s ∈ us, s.used = true) →
    style ∉ us.map (·.style) → addToSlot color style (us ++ r) = (addToSlot color style r).map (us ++ ·)
  | [], _, _ => by simp
  | s :: us, hu, h => by
    simp only [List.map_cons, List.mem_cons, not_or] at h
    rw [List.cons_append, addToSlot_cons]
    have := hu s (by simp)
    rw [if_neg (by simp [this]), if_neg (fun e => h.1 e.symm),
      addToSlot_out r (fun s hs => hu s (List.mem_cons_of_mem _ hs)) h.2, Option.map_map]
    rfl

theorem bump_styles (color : Col) (style : Int) (us : Samples) :
    (bump color style us).map (·.style) = us.map (·.style) := by
  unfold bump
  rw [List.map_map]
  apply List.map_congr_left
  intro s _
  simp only [Function.comp_apply]
  split <;> rfl

/-- One contribution to the slots. -/
theorem add_cases {us l : Samples} (h : Slots us l) (color : Col) (style : Int) :
    (style ∈ us.map (·.style) ∧ Slots (bump color style us) (add l color style)) ∨
    (style ∉ us.map (·.style) ∧ us.length < 4 ∧
      Slots (us ++ [⟨true, style, color⟩]) (add l color style)) ∨
    (style ∉ us.map (·.style) ∧ us.length = 4 ∧ l = us ∧
      add l color style = l.modify (dimmest l 0 0 fltMax) fun t => { t with style := style, color := color }) := by
  obtain ⟨h4, rfl, hu, hn⟩ := h
  by_cases hs : style ∈ us.map (·.style)
  · left
    refine ⟨hs, ?_⟩
    have hl : (bump color style us).length = us.length := by simp [bump]
    refine ⟨by rw [hl]; exact h4, ?_, ?_, by rw [bump_styles]; exact hn⟩
    · unfold add
      rw [addToSlot_in _ hu hn hs, hl]
    · intro s hs'
      unfold bump at hs'
      obtain ⟨t, ht, rfl⟩ := List.mem_map.mp hs'
      split
      · exact hu t ht
      · exact hu t ht
  · right
    have e := addToSlot_out (color := color) (List.replicate (4 - us.length) {}) hu hs
    by_cases hlt : us.length < 4
    · left
      refine ⟨hs, hlt, ?_⟩
      obtain ⟨k, hk⟩ : ∃ k, 4 - us.length = k + 1 := ⟨3 - us.length, by omega⟩
      rw [hk] at e ⊢
      rw [List.replicate_succ] at e ⊢
      rw [addToSlot_cons, if_pos (by rfl)] at e
      refine ⟨by simp; omega, ?_, ?_, ?_⟩
      · unfold add
        rw [e]
        have : 4 - (us ++ [(⟨true, style, color⟩ : Sample)]).length = k := by simp; omega
        rw [this]
        simp
      · intro s hs'
        rcases List.mem_append.mp hs' with h | h
        · exact hu s h
        · rw [List.mem_singleton] at h; rw [h]
      · rw [List.map_append, List.nodup_append]
        refine ⟨hn, by simp, ?_⟩
        intro a ha b hb
        simp only [List.map_cons, List.map_nil, List.mem_singleton] at hb
        rw [hb]
        rintro rfl
        exact hs ha
    · right
      have h4' : us.length = 4 := by omega
      have hr : List.replicate (4 - us.length) ({} : Sample) = [] := by rw [h4']; rfl
      rw [hr, List.append_nil] at e ⊢
      refine ⟨hs, h4', rfl, ?_⟩
      unfold add
      have : addToSlot color style ([] : Samples) = none := rfl
      rw [this, Option.map_none] at e
      rw [e]

/-- The result of the search for the dimmest slot. -/
theorem dimmest_spec : ∀ (r : Samples) (i best : Nat) (b : ℚ),
    (dimmest r i best b = best ∧ ∀ s ∈ r, b ≤ brightness s) ∨
    ∃ k s, dimmest r i best b = i + k ∧ r[k]? = some s ∧ brightness s < b ∧ ∀ t ∈ r, brightness s ≤ brightness t
  | [], _, _, _ => .inl ⟨rfl, by simp⟩
  | s :: r, i, best, b => by
    unfold dimmest
    split
    · next h =>
      right
      rcases dimmest_spec r (i + 1) i (brightness s) with ⟨h1, h2⟩ | ⟨k, t, h1, h2, h3, h4⟩
      · refine ⟨0, s, h1, rfl, h, ?_⟩
        intro t ht
        rcases List.mem_cons.mp ht with rfl | ht
        · exact le_refl _
        · exact h2 t ht
      · refine ⟨k + 1, t, by rw [h1]; omega, by simpa using h2, lt_trans h3 h, ?_⟩
        intro u hu
        rcases List.mem_cons.mp hu with rfl | hu
        · exact h3.le
        · exact h4 u hu
    · next h =>
      rcases dimmest_spec r (i + 1) best b with ⟨h1, h2⟩ | ⟨k, t, h1, h2, h3, h4⟩
      · left
        refine ⟨h1, ?_⟩
        intro t ht
        rcases List.mem_cons.mp ht with rfl | ht
        · exact not_lt.mp h
        · exact h2 t ht
      · right
        refine ⟨k + 1, t, by rw [h1]; omega, by simpa using h2, h3, ?_⟩
        intro u hu
        rcases List.mem_cons.mp hu with rfl | hu
        · exact h3.le.trans (not_lt.mp h)
        · exact h4 u hu

theorem modify_style_slots {us : Samples} {color : Col} {style : Int} (k : Nat) (h : Slots us us)
    (h4 : us.length = 4) (hs : style ∉ us.map (·.style)) :
    Slots (us.modify k fun t => { t with style := style, color := color })
      (us.modify k fun t => { t with style := style, color := color }) := by
  obtain ⟨-, -, hu, hn⟩ := h
  have hl : (us.modify k fun t => { t with style := style, color := color }).length = 4 := by
    rw [List.length_modify, h4]
  refine ⟨by omega, by rw [hl]; simp, ?_, ?_⟩
  · intro s hs'
    obtain ⟨j, hj, rfl⟩ := List.mem_iff_getElem.mp hs'
    rw [List.getElem_modify]
    split
    · exact hu us[j] (List.getElem_mem _)
    · exact hu us[j] (List.getElem_mem _)
  · rw [List.nodup_iff_injective_getElem] at hn ⊢
    intro ⟨a, ha⟩ ⟨b, hb⟩ hab
    have ha' : a < us.length := by simpa using ha
    have hb' : b < us.length := by simpa using hb
    simp only [List.getElem_map, List.getElem_modify] at hab
    have hin : ∀ (j : Nat) (hj : j < us.length), us[j].style ≠ style :=
      fun j hj e => hs (List.mem_map.mpr ⟨us[j], List.getElem_mem hj, e⟩)
    by_cases hak : k = a <;> by_cases hbk : k = b
    · simp only [Fin.mk.injEq]; omega
    · rw [if_pos hak, if_neg hbk] at hab
      exact absurd hab.symm (hin b hb')
    · rw [if_neg hak, if_pos hbk] at hab
      exact absurd hab (hin a ha')
    · rw [if_neg hak, if_neg hbk] at hab
      have := @hn ⟨a, by simpa using ha'⟩ ⟨b, by simpa using hb'⟩ (by simpa using hab)
      simpa using this

theorem slots_add {l us : Samples} (h : Slots us l) (color : Col) (style : Int) :
    ∃ us', Slots us' (add l color style) := by
  rcases add_cases h color style with ⟨-, h'⟩ | ⟨-, -, h'⟩ | ⟨hs, h4, rfl, e⟩
  · exact ⟨_, h'⟩
  · exact ⟨_, h'⟩
  · rw [e]
    exact ⟨_, modify_style_slots _ h h4 hs⟩

theorem slots_addAll (cs : List (Col × Int)) : ∃ us, Slots us (addAll cs) := by
  unfold addAll
  have h0 : ∃ us, Slots us noSamples := ⟨[], by simp, by simp [noSamples], by simp, by simp⟩
  generalize noSamples = l at h0
  induction cs generalizing l with
  | nil => exact h0
  | cons c cs ih =>
    obtain ⟨us, hu⟩ := h0
    rw [List.foldl_cons]
    exact ih _ (slots_add hu c.1 c.2)

theorem takeWhile_slots {us l : Samples} (h : Slots us l) : l.takeWhile (·.used) = us := by
  obtain ⟨-, rfl, hu, -⟩ := h
  rw [List.takeWhile_append_of_pos (by simpa using hu)]
  have : (List.replicate (4 - us.length) ({} : Sample)).takeWhile (·.used) = [] := by
    cases 4 - us.length with
    | zero => rfl
    | succ k => rfl
  rw [this, List.append_nil]

/-- C125. Whatever light is added at a point and in whatever order: there are four slots, the
used ones come first, so that none of them is overlooked when the lump is written, and no style
has two slots. -/
theorem slots_well_formed (cs : List (Col × Int)) :
    (addAll cs).length = 4 ∧ (∀ s ∈ addAll cs, s.used = true → s ∈ (addAll cs).takeWhile (·.used)) ∧
      (((addAll cs).takeWhile (·.used)).map (·.style)).Nodup := by
  obtain ⟨us, h⟩ := slots_addAll cs
  rw [takeWhile_slots h]
  obtain ⟨h4, e, hu, hn⟩ := h
  refine ⟨?_, ?_, hn⟩
  · rw [e]; simp; omega
  · intro s hs hus
    rw [e] at hs
    rcases List.mem_append.mp hs with h | h
    · exact h
    · rw [List.eq_of_mem_replicate h] at hus
      cases hus

/-- The slots hold all the light of the contributions. -/
def Holds (cs : List (Col × Int)) (us : Samples) : Prop :=
  (∀ st, st ∈ us.map (·.style) ↔ st ∈ cs.map (·.2)) ∧ ∀ s ∈ us, ∀ i, s.color i = total cs s.style i

theorem total_append (cs : List (Col × Int)) (c : Col × Int) (st : Int) (i : Fin 3) :
    total (cs ++ [c]) st i = total cs st i + if c.2 = st then c.1 i else 0 := by
  unfold total
  rw [List.filter_append, List.map_append, List.sum_append]
  congr 1
  by_cases h : c.2 = st <;> simp [h]

theorem total_none {cs : List (Col × Int)} {st : Int} (h : st ∉ cs.map (·.2)) (i : Fin 3) : total cs st i = 0 := by
  unfold total
  have : cs.filter (fun c => c.2 = st) = [] := by
    rw [List.filter_eq_nil_iff]
    intro c hc
    simp only [decide_eq_true_eq]
    rintro rfl
    exact h (List.mem_map.mpr ⟨c, hc, rfl⟩)
  rw [this]
  rfl

theorem holds_addAll (T : List Int) (hT : T.length ≤ 4) : ∀ (cs : List (Col × Int)), (∀ c ∈ cs, c.2 ∈ T) →
    ∃ us, Slots us (addAll cs) ∧ Holds cs us := by
  intro cs
  induction cs using List.reverseRecOn with
  | nil =>
    intro _
    exact ⟨[], ⟨by simp, by simp [addAll, noSamples], by simp, by simp⟩, by simp [Holds]⟩
  | append_singleton cs c ih =>
    intro hc
    obtain ⟨us, hs, ⟨h1, h2⟩⟩ := ih (fun c h => hc c (by simp [h]))
    have e : addAll (cs ++ [c]) = add (addAll cs) c.1 c.2 := by simp [addAll, List.foldl_append]
    rw [e]
    rcases add_cases hs c.1 c.2 with ⟨hm, h'⟩ | ⟨hm, hlt, h'⟩ | ⟨hm, h4, -, -⟩
    · refine ⟨_, h', ?_, ?_⟩
      · intro st
        rw [bump_styles, h1 st]
        simp only [List.map_append, List.map_cons, List.map_nil, List.mem_append, List.mem_singleton]
        constructor
        · exact .inl
        · rintro (h | h)
          · exact h
          · rw [h]; exact (h1 _).mp hm
      · intro s hs' i
        unfold bump at hs'
        obtain ⟨t, ht, rfl⟩ := List.mem_map.mp hs'
        by_cases hst : t.style = c.2
        · rw [if_pos hst]
          show t.color i + c.1 i = total _ t.style i
          rw [total_append, if_pos hst.symm, h2 t ht i]
        · rw [if_neg hst, total_append, if_neg (fun e => hst e.symm), add_zero, h2 t ht i]
    · refine ⟨_, h', ?_, ?_⟩
      · intro st
        simp only [List.map_append, List.map_cons, List.map_nil, List.mem_append, List.mem_singleton, h1 st]
      · intro s hs' i
        rcases List.mem_append.mp hs' with h | h
        · have hst : c.2 ≠ s.style := fun e => hm (List.mem_map.mpr ⟨s, h, e.symm⟩)
          rw [total_append, if_neg hst, add_zero, h2 s h i]
        · rw [List.mem_singleton] at h
          subst h
          rw [total_append, if_pos rfl, total_none (fun h => hm ((h1 _).mpr h)), zero_add]
    · exfalso
      have hnd : (c.2 :: us.map (·.style)).Nodup := List.nodup_cons.mpr ⟨hm, hs.2.2.2⟩
      have hsub : (c.2 :: us.map (·.style)) ⊆ T := by
        intro st hst
        rcases List.mem_cons.mp hst with rfl | h
        · exact hc c (by simp)
        · obtain ⟨d, hd, rfl⟩ := List.mem_map.mp ((h1 st).mp h)
          exact hc d (by simp [hd])
      have := (hnd.subperm hsub).length_le
      simp only [List.length_cons, List.length_map] at this
      omega

/-- C125. If light of at most four styles reaches a point, then every one of these styles has a
slot, and its colour is the sum of all light of that style; no other style has a slot. -/
theorem styles_summed_partial {cs : List (Col × Int)} (T : List Int) (hT : T.length ≤ 4) (hc : ∀ c ∈ cs, c.2 ∈ T) :
    (∀ st, (∃ s ∈ (addAll cs).takeWhile (·.used), s.style = st) ↔ ∃ c ∈ cs, c.2 = st) ∧
      ∀ s ∈ (addAll cs).takeWhile (·.used), ∀ i, s.color i = total cs s.style i := by
  obtain ⟨us, hs, h1, h2⟩ := holds_addAll T hT cs hc
  rw [takeWhile_slots hs]
  refine ⟨?_, h2⟩
  intro st
  have := h1 st
  simpa only [List.mem_map] using this

/-- C125. If a fifth style comes, one of the slots with the lowest brightness is given to it, and
the other slots are as before. -/
theorem fifth_style {l : Samples} {color : Col} {style : Int} (h : ∃ cs, l = addAll cs)
    (hu : ∀ s ∈ l, s.used = true) (hs : ∀ s ∈ l, s.style ≠ style) (hb : ∀ s ∈ l, brightness s < fltMax) :
    ∃ k s, l[k]? = some s ∧ (∀ t ∈ l, brightness s ≤ brightness t) ∧
      add l color style = l.set k ⟨true, style, color⟩ := by
  obtain ⟨cs, rfl⟩ := h
  obtain ⟨us, hsl⟩ := slots_addAll cs
  have hus : addAll cs = us := by
    rw [← takeWhile_slots hsl]
    exact (List.takeWhile_eq_self_iff.mpr (by simpa using hu)).symm
  have hlen := (slots_well_formed cs).1
  rw [hus] at hu hs hb hlen hsl ⊢
  have hm : style ∉ us.map (·.style) := by
    intro h
    obtain ⟨s, h1, h2⟩ := List.mem_map.mp h
    exact hs s h1 h2
  rcases add_cases hsl color style with ⟨h, -⟩ | ⟨-, h, -⟩ | ⟨-, -, -, e⟩
  · exact absurd h hm
  · omega
  · rw [e]
    rcases dimmest_spec us 0 0 fltMax with ⟨-, h2⟩ | ⟨k, s, h1, h2, -, h4⟩
    · obtain ⟨s, r, rfl⟩ := List.exists_cons_of_length_pos (l := us) (by omega)
      exact absurd (hb s (by simp)) (not_lt.mpr (h2 s (by simp)))
    · refine ⟨k, s, h2, h4, ?_⟩
      rw [h1, Nat.zero_add, List.modify_eq_set_getElem?, h2]
      have : s.used = true := hu s (List.mem_of_getElem? h2)
      simp [this]

/-- C125, what is missing: with five styles, a style can be lost although it is brighter than
one that is kept. -/
theorem brighter_style_lost : ∃ (cs : List (Col × Int)) (lost kept : Int),
    (∀ i, total cs kept i < total cs lost i) ∧ (∃ s ∈ addAll cs, s.used = true ∧ s.style = kept) ∧
      ¬∃ s ∈ addAll cs, s.used = true ∧ s.style = lost := by
  refine ⟨[(fun _ => 10, 1), (fun _ => 10, 2), (fun _ => 10, 3), (fun _ => 10, 4), (fun _ => 1, 5)], 1, 5, ?_, ?_, ?_⟩
  · intro i
    simp [total]
  · refine ⟨⟨true, 5, fun _ => 1⟩, ?_, rfl, rfl⟩
    simp [addAll, add, noSamples, addToSlot, dimmest, brightness, fltMax]
    norm_num
  · rintro ⟨s, hs, hu, h1⟩
    simp [addAll, add, noSamples, addToSlot, dimmest, brightness, fltMax] at hs
    norm_num at hs
    rcases hs with rfl | rfl | rfl | rfl <;> simp at h1

/-! ### Scale -/

theorem le_maxOf (c : Col) (i : Fin 3) : c i ≤ maxOf c := by
  unfold maxOf
  fin_cases i
  · exact le_trans (le_max_left _ _) (le_max_left _ _)
  · exact le_trans (le_max_right _ _) (le_max_left _ _)
  · exact le_max_right _ _

theorem maxOf_le {c : Col} {m : ℚ} (h : ∀ i, c i ≤ m) : maxOf c ≤ m := max_le (max_le (h 0) (h 1)) (h 2)

theorem rangeAndClamp_bounds {k : Scale} {c : Col} (hr : 0 ≤ k.rangescale) (hc : ∀ i, 0 ≤ c i)
    (hg : ∀ f, k.gamma = some f → ∀ q, 0 ≤ q → 0 ≤ f q) (i : Fin 3) :
    0 ≤ rangeAndClamp k c i ∧ rangeAndClamp k c i ≤ 255 := by
  have key : ∀ c3 : Col, (∀ i, 0 ≤ c3 i) → ∀ i, 0 ≤ (if maxOf c3 > 255 then fun i => c3 i * (255 / maxOf c3) else c3 : Col) i ∧
      (if maxOf c3 > 255 then fun i => c3 i * (255 / maxOf c3) else c3 : Col) i ≤ 255 := by
    intro c3 h i
    split
    · next hm =>
      have hm0 : 0 < maxOf c3 := by linarith
      refine ⟨mul_nonneg (h i) (by positivity), ?_⟩
      calc c3 i * (255 / maxOf c3) ≤ maxOf c3 * (255 / maxOf c3) :=
            mul_le_mul_of_nonneg_right (le_maxOf c3 i) (by positivity)
        _ = 255 := by field_simp
    · next hm => exact ⟨h i, le_trans (le_maxOf c3 i) (not_lt.mp hm)⟩
  have h2 : ∀ i, 0 ≤ c i * k.rangescale := fun i => mul_nonneg (hc i) hr
  unfold rangeAndClamp
  cases hgm : k.gamma with
  | none => exact key _ h2 i
  | some f => exact key _ (fun i => hg f hgm _ (h2 i)) i

/-- C126. With a limit and a scale that are not negative, every colour of the light grid is
between 0 and 255, so that its rounding is defined. -/
theorem scale_bounds_partial {k : Scale} (hm : 0 ≤ k.maxlight) (hr : 0 ≤ k.rangescale)
    (hg : ∀ f, k.gamma = some f → ∀ q, 0 ≤ q → 0 ≤ f q) (color : Col) :
    ∃ c, scaleAndClamp k color = .ok c ∧ ∀ i, 0 ≤ c i ∧ c i ≤ 255 := by
  unfold scaleAndClamp
  dsimp only
  have h0 : ∀ i, 0 ≤ max (color i) 0 := fun i => le_max_right _ _
  split
  · next h =>
    have hp : 0 < maxOf fun i => max (color i) 0 := by linarith [h.2]
    rw [if_neg hp.ne']
    exact ⟨_, rfl, rangeAndClamp_bounds hr (fun i => mul_nonneg (h0 i) (by positivity)) hg⟩
  · exact ⟨_, rfl, rangeAndClamp_bounds hr h0 hg⟩

/-- C126. Without gamma, all components are scaled by the same number, at most the range scale,
after negative light is removed; the result is below the limit, and the number is the range
scale if neither limit is exceeded. -/
theorem scale_keeps_hue {k : Scale} (hm : 0 ≤ k.maxlight) (hr : 0 ≤ k.rangescale) (hg : k.gamma = none) (color : Col) :
    ∃ c t, scaleAndClamp k color = .ok c ∧ (0 ≤ t ∧ t ≤ k.rangescale) ∧ (∀ i, c i = t * max (color i) 0) ∧
      (k.maxlight ≠ 0 → ∀ i, c i ≤ 2 * k.maxlight * k.rangescale) ∧
      ((∀ i, color i * k.rangescale ≤ 255) → (k.maxlight ≠ 0 → ∀ i, color i ≤ 2 * k.maxlight) → t = k.rangescale) := by
  have step : ∀ c1 : Col, (∀ i, 0 ≤ c1 i) → ∃ u, (0 ≤ u ∧ u ≤ k.rangescale) ∧ (∀ i, rangeAndClamp k c1 i = u * c1 i) ∧
      ((∀ i, c1 i * k.rangescale ≤ 255) → u = k.rangescale) := by
    intro c1 h1
    unfold rangeAndClamp
    rw [hg]
    dsimp only
    split
    · next hx =>
      have hp : 0 < maxOf fun i => c1 i * k.rangescale := by linarith
      refine ⟨k.rangescale * (255 / maxOf fun i => c1 i * k.rangescale), ⟨mul_nonneg hr (by positivity), ?_⟩, ?_, ?_⟩
      · have : (255 / maxOf fun i => c1 i * k.rangescale) ≤ 1 := by rw [div_le_one hp]; exact hx.le
        calc _ ≤ k.rangescale * 1 := mul_le_mul_of_nonneg_left this hr
          _ = _ := mul_one _
      · intro i; ring
      · intro h
        exact absurd (maxOf_le h) (not_le.mpr hx)
    · exact ⟨k.rangescale, ⟨hr, le_refl _⟩, fun i => mul_comm _ _, fun _ => rfl⟩
  have h0 : ∀ i, 0 ≤ max (color i) 0 := fun i => le_max_right _ _
  unfold scaleAndClamp
  dsimp only
  split
  · next h =>
    have hp : 0 < maxOf fun i => max (color i) 0 := by linarith [h.2]
    rw [if_neg hp.ne']
    have hs0 : 0 ≤ k.maxlight * 2 / maxOf fun i => max (color i) 0 := by positivity
    have hs1 : (k.maxlight * 2 / maxOf fun i => max (color i) 0) ≤ 1 := by rw [div_le_one hp]; exact h.2.le
    obtain ⟨u, ⟨u0, u1⟩, hu, -⟩ := step (fun i => max (color i) 0 * (k.maxlight * 2 / maxOf fun i => max (color i) 0))
      (fun i => mul_nonneg (h0 i) hs0)
    refine ⟨_, u * (k.maxlight * 2 / maxOf fun i => max (color i) 0), rfl, ⟨mul_nonneg u0 hs0, ?_⟩, ?_, ?_, ?_⟩
    · calc _ ≤ u * 1 := mul_le_mul_of_nonneg_left hs1 u0
        _ ≤ _ := by rw [mul_one]; exact u1
    · intro i; rw [hu i]; ring
    · intro _ i
      rw [hu i]
      have : max (color i) 0 * (k.maxlight * 2 / maxOf fun i => max (color i) 0) ≤ 2 * k.maxlight := by
        calc _ ≤ (maxOf fun i => max (color i) 0) * (k.maxlight * 2 / maxOf fun i => max (color i) 0) :=
              mul_le_mul_of_nonneg_right (le_maxOf (fun i => max (color i) 0) i) hs0
          _ = 2 * k.maxlight := by field_simp
      calc _ ≤ u * (2 * k.maxlight) := mul_le_mul_of_nonneg_left this u0
        _ ≤ k.rangescale * (2 * k.maxlight) := mul_le_mul_of_nonneg_right u1 (by positivity)
        _ = _ := by ring
    · intro _ hx
      exfalso
      have h3 := maxOf_le (c := fun i => max (color i) 0) (m := k.maxlight * 2)
        (fun i => max_le (by linarith [hx h.1 i]) (by linarith))
      linarith [h.2]
  · next h =>
    obtain ⟨u, ⟨u0, u1⟩, hu, hlim⟩ := step (fun i => max (color i) 0) h0
    refine ⟨_, u, rfl, ⟨u0, u1⟩, hu, ?_, ?_⟩
    · intro hne i
      have hle : (maxOf fun i => max (color i) 0) ≤ k.maxlight * 2 := by
        by_contra hc
        exact h ⟨hne, not_le.mp hc⟩
      rw [hu i]
      have h3 : max (color i) 0 ≤ 2 * k.maxlight := by
        have : max (color i) 0 ≤ _ := le_maxOf (fun i => max (color i) 0) i
        linarith
      calc _ ≤ u * (2 * k.maxlight) := mul_le_mul_of_nonneg_left h3 u0
        _ ≤ k.rangescale * (2 * k.maxlight) := mul_le_mul_of_nonneg_right u1 (by positivity)
        _ = _ := by ring
    · intro hx _
      apply hlim
      intro i
      rcases max_cases (color i) 0 with ⟨e, -⟩ | ⟨e, -⟩
      · rw [e]; exact hx i
      · rw [e, zero_mul]; norm_num

/-- C126, what is missing: with a negative limit, the light of a point that gets no or only
negative light is undefined. -/
theorem scale_negative_limit {k : Scale} (hm : k.maxlight < 0) {color : Col} (hc : ∀ i, color i ≤ 0) :
    scaleAndClamp k color = .ub := by
  have e : (maxOf fun i => max (color i) 0) = 0 := by
    apply le_antisymm
    · exact maxOf_le fun i => max_le (hc i) (le_refl _)
    · exact le_trans (le_max_right (color 0) 0) (le_maxOf (fun i => max (color i) 0) 0)
  unfold scaleAndClamp
  dsimp only
  rw [if_pos ⟨hm.ne, by rw [e]; linarith⟩, if_pos e]

/-- C126. The light at a point can be written to the lump: with limits and scales that are not
negative and styles that fit into a byte, for all contributions of light. -/
theorem calc_writable_partial {k : Scale} (hm : 0 ≤ k.maxlight) (hr : 0 ≤ k.rangescale)
    (hg : ∀ f, k.gamma = some f → ∀ q, 0 ≤ q → 0 ≤ f q) (cs : List (Col × Int))
    (hc : ∀ c ∈ cs, 0 ≤ c.2 ∧ c.2 ≤ 255) : ∃ l, calcAtPoint k cs = .ok l ∧ FineSamples l := by
  have hst : ∀ s ∈ addAll cs, s.used = true → 0 ≤ s.style ∧ s.style ≤ 255 := by
    have h0 : ∀ s ∈ noSamples, s.used = true → 0 ≤ s.style ∧ s.style ≤ 255 := by
      intro s hs hu
      rw [List.eq_of_mem_replicate hs] at hu
      cases hu
    have hslot : ∀ (c : Col) (st : Int), 0 ≤ st ∧ st ≤ 255 → ∀ l l' : Samples, addToSlot c st l = some l' →
        (∀ s ∈ l, s.used = true → 0 ≤ s.style ∧ s.style ≤ 255) →
        ∀ s ∈ l', s.used = true → 0 ≤ s.style ∧ s.style ≤ 255 := by
      intro c st hs l
      induction l with
      | nil => intro l' h; cases h
      | cons a l ih =>
        intro l' h hl
        unfold addToSlot at h
        split at h
        · rw [Option.some.injEq] at h
          subst h
          intro s hs' hu
          rcases List.mem_cons.mp hs' with rfl | h
          · exact hs
          · exact hl s (List.mem_cons_of_mem _ h) hu
        · split at h
          · rw [Option.some.injEq] at h
            subst h
            intro s hs' hu
            rcases List.mem_cons.mp hs' with rfl | h
            · exact hl a (by simp) hu
            · exact hl s (List.mem_cons_of_mem _ h) hu
          · obtain ⟨m, hm, rfl⟩ := Option.map_eq_some_iff.mp h
            intro s hs' hu
            rcases List.mem_cons.mp hs' with rfl | h
            · exact hl s (by simp) hu
            · exact ih m hm (fun s hs => hl s (List.mem_cons_of_mem _ hs)) s h hu
    unfold addAll
    generalize noSamples = l at h0
    induction cs generalizing l with
    | nil => exact h0
    | cons c cs ih =>
      rw [List.foldl_cons]
      refine ih (fun c h => hc c (List.mem_cons_of_mem _ h)) _ ?_
      have hs := hc c (by simp)
      unfold add
      split
      · next l' h => exact hslot _ _ hs l l' h h0
      · intro s hs' hu
        obtain ⟨j, hj, rfl⟩ := List.mem_iff_getElem.mp hs'
        rw [List.getElem_modify] at hu ⊢
        split
        · exact hs
        · next h =>
          rw [if_neg h] at hu
          exact h0 _ (List.getElem_mem _) hu
  obtain ⟨l, hl⟩ := each_exists (f := scaleSample k) (l := addAll cs) (by
    intro s _
    unfold scaleSample
    split
    · obtain ⟨c, hc, -⟩ := scale_bounds_partial hm hr hg s.color
      rw [hc]
      exact ⟨_, rfl⟩
    · exact ⟨s, rfl⟩)
  refine ⟨l, hl, ?_, ?_⟩
  · rw [each_length hl, (slots_well_formed cs).1]
  · intro s hs hu
    obtain ⟨t, ht, e⟩ := each_mem hl hs
    unfold scaleSample at e
    split at e
    · next htu =>
      obtain ⟨c, hc, hb⟩ := scale_bounds_partial hm hr hg t.color
      rw [hc] at e
      simp only [Outcome.ok_bind, Outcome.pure_eq, Outcome.ok.injEq] at e
      subst e
      refine ⟨hst t ht htu, fun i => ?_⟩
      rw [abs_of_nonneg (hb i).1]
      exact le_trans (hb i).2 (by norm_num)
    · next htu =>
      simp only [Outcome.ok.injEq] at e
      subst e
      exact absurd hu htu

end Verif.LightGrid
