import Mathlib.Algebra.Order.Ring.Rat
import Mathlib.Algebra.Field.Rat
import Mathlib.Tactic.NormNum
import Verif.Illum.MapsProps

/-!
C160: minimum light is a floor under the light of its style. It never darkens a sample, leaves the samples it is not meant
for and all other styles alone, and giving it a second time changes nothing.
-/

namespace Verif.Illum

variable {K : Type} [Field K] [LinearOrder K]

/-- The sample `i` after the colours of the list have been put under it. -/
def floorOf (rs : List (Nat × (K × K × K))) (i : Nat) (x : K × K × K) : K × K × K :=
  rs.foldl (fun x r => if r.1 = i then clampMin r.2 x else x) x

theorem raise_eq (c x : K) : raise c x = max c x := by
  unfold raise
  split_ifs with h
  · exact (max_eq_left h.le).symm
  · exact (max_eq_right (not_lt.1 h)).symm

theorem clampMin_eq (c x : K × K × K) : clampMin c x = (max c.1 x.1, max c.2.1 x.2.1, max c.2.2 x.2.2) := by
  unfold clampMin; rw [raise_eq, raise_eq, raise_eq]

theorem clampMin_of_no_hit {c x : K × K × K} (h : clampHit c x = false) : clampMin c x = x := by
  unfold clampHit at h
  simp only [Bool.or_eq_false_iff, decide_eq_false_iff_not, not_lt] at h
  rw [clampMin_eq, max_eq_right h.1.1, max_eq_right h.1.2, max_eq_right h.2]

theorem clampTo_of_no_hit {d : List (Lm (K × K × K))} {k i : Nat} {c : K × K × K} {m : Lm (K × K × K)}
    (hm : d[k]? = some m) (hi : i < m.samples.length) (h : hitAt k i c d = false) : clampTo i c m = m := by
  unfold hitAt at h
  rw [hm] at h
  simp only [List.getElem?_eq_getElem hi] at h
  unfold clampTo
  have : m.samples.modify i (clampMin c) = m.samples := by
    apply List.ext_getElem (by simp)
    intro j h1 h2
    rw [List.getElem_modify]
    split_ifs with hij
    · subst hij; exact clampMin_of_no_hit h
    · rfl
  rw [this]

theorem clampAll_spec (k n : Nat) (rs : List (Nat × (K × K × K))) :
    ∀ (d : List (Lm (K × K × K))) (m : Lm (K × K × K)) (hit : Bool), d[k]? = some m → m.samples.length = n →
      (∀ r ∈ rs, r.1 < n) →
      ∃ m' h, clampAll k d rs hit = .ok (d.set k m', h) ∧ m'.style = m.style ∧ m'.samples.length = n ∧
        (h = false → hit = false ∧ m' = m) ∧ ∀ i, m'.samples.getD i 0 = floorOf rs i (m.samples.getD i 0) := by
  induction rs with
  | nil =>
    intro d m hit hm hl _
    refine ⟨m, hit, ?_, rfl, hl, fun h => ⟨h, rfl⟩, fun i => rfl⟩
    unfold clampAll
    rw [set_same hm]
  | cons r rs ih =>
    intro d m hit hm hl hr
    obtain ⟨i, c⟩ := r
    have hi : i < n := hr (i, c) (by simp)
    have hk : k < d.length := by
      by_contra h
      rw [List.getElem?_eq_none (by omega)] at hm
      exact absurd hm (by simp)
    have hm2 : (d.set k (clampTo i c m))[k]? = some (clampTo i c m) := by simp [hk]
    have hl2 : (clampTo i c m).samples.length = n := by unfold clampTo; simp [hl]
    obtain ⟨m', h, h', hst, hl', hno, hs'⟩ := ih (d.set k (clampTo i c m)) (clampTo i c m) (hitAt k i c d || hit) hm2 hl2
      fun q hq => hr q (by simp [hq])
    refine ⟨m', h, ?_, hst, hl', ?_, ?_⟩
    · unfold clampAll writeMap
      rw [hm]
      simp only
      rw [if_pos (by omega), Outcome.ok_bind, h', List.set_set]
    · intro hf
      obtain ⟨h1, h2⟩ := hno hf
      rw [Bool.or_eq_false_iff] at h1
      exact ⟨h1.2, h2.trans (clampTo_of_no_hit hm (by omega) h1.1)⟩
    · intro j
      rw [hs' j]
      unfold clampTo
      simp only
      rw [getD_modify _ _ _ _ (by omega)]
      rfl

theorem floorOf_absent (rs : List (Nat × (K × K × K))) (i : Nat) (x : K × K × K) (h : ∀ r ∈ rs, r.1 ≠ i) :
    floorOf rs i x = x := by
  induction rs generalizing x with
  | nil => rfl
  | cons r rs ih =>
    unfold floorOf
    rw [List.foldl_cons, if_neg (h r (by simp))]
    exact ih x fun q hq => h q (by simp [hq])

theorem floorOf_mem (rs : List (Nat × (K × K × K))) (hn : (rs.map Prod.fst).Nodup) (i : Nat) (c x : K × K × K)
    (h : (i, c) ∈ rs) : floorOf rs i x = clampMin c x := by
  induction rs generalizing x with
  | nil => exact absurd h (by simp)
  | cons r rs ih =>
    rw [List.map_cons, List.nodup_cons] at hn
    unfold floorOf
    rw [List.foldl_cons]
    rcases List.mem_cons.1 h with h' | h'
    · subst h'
      rw [if_pos rfl]
      exact floorOf_absent rs i _ fun q hq hqi => hn.1 (List.mem_map.2 ⟨q, hq, hqi⟩)
    · have hne : r.1 ≠ i := fun e => hn.1 (List.mem_map.2 ⟨(i, c), h', e.symm⟩)
      rw [if_neg hne]
      exact ih hn.2 x h'

/-- C160, partial: the style is not the reserved number 65535. `rs` lists the samples that are to get the minimum light,
each once, and the colour for each. -/
theorem min_light_floor_partial (n style : Nat) (d : List (Lm (K × K × K))) (rs : List (Nat × (K × K × K)))
    (hg : Good n d) (hs : style ≠ 65535) (hr : ∀ r ∈ rs, r.1 < n) (hn : (rs.map Prod.fst).Nodup) :
    ∃ d', minLight n style d rs = .ok d' ∧ Good n d' ∧
      (∀ i c, (i, c) ∈ rs → lit d' style i =
        (max c.1 (lit d style i).1, max c.2.1 (lit d style i).2.1, max c.2.2 (lit d style i).2.2)) ∧
      (∀ i, (∀ r ∈ rs, r.1 ≠ i) → lit d' style i = lit d style i) ∧
      ∀ t i, t ≠ 65535 → t ≠ style → lit d' t i = lit d t i := by
  obtain ⟨hg1, hs1, hm1⟩ := forStyle_spec hg hs
  obtain ⟨m, hm, hlen, hst, hlit, _⟩ := slot_lit hg1 hs1
  obtain ⟨m', h, h', hst', hl', hno, hs'⟩ := clampAll_spec _ n rs _ m false hm hlen hr
  have key : Good n (saveAt (forStyle n style d).2 style h ((forStyle n style d).1.set (forStyle n style d).2 m')) ∧
      (∀ i, lit (saveAt (forStyle n style d).2 style h ((forStyle n style d).1.set (forStyle n style d).2 m')) style i =
        floorOf rs i (lit d style i)) ∧
      ∀ t i, t ≠ 65535 → t ≠ style →
        lit (saveAt (forStyle n style d).2 style h ((forStyle n style d).1.set (forStyle n style d).2 m')) t i =
          lit d t i := by
    cases h with
    | false =>
      obtain ⟨_, e⟩ := hno rfl
      subst e
      rw [set_same hm]
      simp only [saveAt, Bool.false_eq_true, if_false]
      refine ⟨hg1, fun i => ?_, fun t i ht _ => (lit_of_map (hm1 t ht) i).1⟩
      rw [← (lit_of_map (hm1 style hs) i).1, hlit i, ← hs' i]
    | true =>
      obtain ⟨a, b, c⟩ := save_spec (m' := m') hg1 hs1 hs (by rw [hst']; exact hst) hl'
      refine ⟨a, fun i => ?_, fun t i ht hts => ?_⟩
      · rw [b i, hs' i, ← hlit i, (lit_of_map (hm1 style hs) i).1]
      · rw [(lit_of_map (c t ht hts) i).1, (lit_of_map (hm1 t ht) i).1]
  refine ⟨_, ?_, key.1, ?_, ?_, key.2.2⟩
  · unfold minLight
    simp only [h', Outcome.ok_bind, Outcome.pure_eq]
  · intro i c hic
    rw [key.2.1 i, floorOf_mem rs hn i c _ hic, clampMin_eq]
  · intro i hi
    rw [key.2.1 i, floorOf_absent rs i _ hi]

/-- C160: giving the same minimum light twice is giving it once. -/
theorem min_light_twice_partial (n style : Nat) (d d' d'' : List (Lm (K × K × K))) (rs : List (Nat × (K × K × K)))
    (hg : Good n d) (hs : style ≠ 65535) (hr : ∀ r ∈ rs, r.1 < n) (hn : (rs.map Prod.fst).Nodup)
    (h1 : minLight n style d rs = .ok d') (h2 : minLight n style d' rs = .ok d'') :
    ∀ t i, t ≠ 65535 → lit d'' t i = lit d' t i := by
  obtain ⟨e1, he1, hg1, ha1, hb1, hc1⟩ := min_light_floor_partial n style d rs hg hs hr hn
  rw [h1] at he1
  injection he1 with he1
  subst he1
  obtain ⟨e2, he2, hg2, ha2, hb2, hc2⟩ := min_light_floor_partial n style d' rs hg1 hs hr hn
  rw [h2] at he2
  injection he2 with he2
  subst he2
  intro t i ht
  by_cases hts : t = style
  · subst hts
    by_cases hi : ∃ c, (i, c) ∈ rs
    · obtain ⟨c, hc⟩ := hi
      rw [ha2 i c hc, ha1 i c hc]
      simp
    · rw [hb2 i]
      rintro ⟨j, c⟩ hq rfl
      exact hi ⟨c, hq⟩
  · rw [hc2 t i ht hts]

/-- A face of two samples lit by a light of style 0, then a floor of (3, 3, 3) under its first sample. -/
example : Good 2 ([⟨0, [(5, 1, 0), (2, 2, 2)], (7, 3, 2)⟩] : List (Lm (ℚ × ℚ × ℚ))) ∧
    minLight 2 0 ([⟨0, [(5, 1, 0), (2, 2, 2)], (7, 3, 2)⟩] : List (Lm (ℚ × ℚ × ℚ))) [(0, (3, 3, 3))] =
      .ok [⟨0, [(5, 3, 3), (2, 2, 2)], (7, 3, 2)⟩] := by
  constructor
  · refine ⟨?_, ?_, ?_⟩
    · intro i j hi hj _
      simp only [List.length_singleton] at hi hj
      omega
    · intro m hm
      simp only [List.mem_singleton] at hm
      subst hm; rfl
    · intro m hm h
      simp only [List.mem_singleton] at hm
      subst hm
      exact absurd h (by decide)
  · simp [minLight, forStyle, clampAll, writeMap, clampTo, clampMin, raise, hitAt, clampHit, saveAt, saved, invalid,
      List.findIdx?_cons, Outcome.ok_bind, Outcome.pure_eq]
    norm_num

end Verif.Illum
