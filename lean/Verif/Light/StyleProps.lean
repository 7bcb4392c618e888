import Verif.Light.SaveLemmas
import Verif.Light.Lumps

/-!
Which lightmaps are kept, and how their styles are recorded.
-/

namespace Verif.Light

/-! ### The choice of the lightmaps -/

theorem pairLe_trans (a b d : Lightmap × Nat) (h1 : pairLe a b = true) (h2 : pairLe b d = true) :
    pairLe a d = true := by
  unfold pairLe at *
  simp only [Bool.or_eq_true, Bool.and_eq_true, decide_eq_true_eq] at *
  rcases h1 with h1 | ⟨h1, h1'⟩ <;> rcases h2 with h2 | ⟨h2, h2'⟩
  · left; exact lt_trans h1 h2
  · left; rw [← h2]; exact h1
  · left; rw [h1]; exact h2
  · right; exact ⟨h1.trans h2, le_trans h1' h2'⟩

theorem pairLe_total (a b : Lightmap × Nat) : (pairLe a b || pairLe b a) = true := by
  unfold pairLe
  simp only [Bool.or_eq_true, Bool.and_eq_true, decide_eq_true_eq]
  rcases lt_trichotomy a.1.avg b.1.avg with h | h | h
  · exact Or.inl (Or.inl h)
  · rcases Nat.le_total a.2 b.2 with h' | h'
    · exact Or.inl (Or.inr ⟨h, h'⟩)
    · exact Or.inr (Or.inr ⟨h.symm, h'⟩)
  · exact Or.inr (Or.inl h)

theorem byBrightness_sorted (l : List Lightmap) :
    (byBrightness l).Pairwise (fun a b => b.avg ≤ a.avg) := by
  unfold byBrightness
  rw [List.pairwise_map, List.pairwise_reverse]
  have ht : IsTrans (Lightmap × Nat) (fun a b => pairLe a b = true) :=
    ⟨fun a b d => pairLe_trans a b d⟩
  have hl : Std.Total (fun a b : Lightmap × Nat => pairLe a b = true) :=
    ⟨fun a b => by have := pairLe_total a b; rwa [Bool.or_eq_true] at this⟩
  refine (List.pairwise_insertionSort (fun a b => pairLe a b = true) l.zipIdx).imp ?_
  intro a b h
  unfold pairLe at h
  simp only [Bool.or_eq_true, Bool.and_eq_true, decide_eq_true_eq] at h
  rcases h with h | ⟨h, _⟩
  · exact le_of_lt h
  · exact le_of_eq h

/-- **C110.** The lightmaps that are saved for a face are the brightest ones: there are as many
of them as the limit allows, they are in the order of brightness, and none of those that are
left out is brighter than one that is saved. -/
theorem kept_brightest (c : Cfg) (sup : Bool) (s : Surf) :
    (kept c sup s).length = min (maxStyles c sup) (sortable c sup s).length ∧
    (kept c sup s).Pairwise (fun a b => b.avg ≤ a.avg) ∧
    ∃ left, (kept c sup s ++ left).Perm (sortable c sup s) ∧
      ∀ a ∈ kept c sup s, ∀ b ∈ left, b.avg ≤ a.avg := by
  have hs := byBrightness_sorted (sortable c sup s)
  have hp := byBrightness_perm (sortable c sup s)
  refine ⟨?_, hs.sublist (List.take_sublist _ _),
    (byBrightness (sortable c sup s)).drop (maxStyles c sup), ?_, ?_⟩
  · unfold kept
    rw [List.length_take, hp.length_eq]
  · unfold kept
    rw [List.take_append_drop]
    exact hp
  · rw [← List.take_append_drop (maxStyles c sup) (byBrightness (sortable c sup s)),
      List.pairwise_append] at hs
    exact hs.2.2

/-- **C110.** The limit is four lightmaps, or sixteen with supplementary data, or the value of
`-facestyles` if it is smaller. -/
theorem kept_limit (c : Cfg) (sup : Bool) (s : Surf) :
    (kept c sup s).length ≤ (if sup then 16 else 4) ∧
    (0 ≤ c.facestyles → ((kept c sup s).length : Int) ≤ c.facestyles) := by
  have h := (kept_brightest c sup s).1
  have h1 : maxStyles c sup ≤ (if sup then 16 else 4) := by
    unfold maxStyles MAXLIGHTMAPS MAXLIGHTMAPSSUP
    simp only
    split
    · exact le_refl _
    · exact Nat.min_le_right _ _
  refine ⟨by omega, fun h0 => ?_⟩
  have h2 : maxStyles c sup ≤ c.facestyles.toNat := by
    unfold maxStyles
    simp only
    rw [if_neg (by omega)]
    exact Nat.min_le_left _ _
  omega

/-- **C110.** In games other than Quake II the candidates are the lightmaps with a sample of
brightness 1 or more; the style has to fit into a byte. -/
theorem sortable_iff {c : Cfg} (hc : c.q2 = false) (sup : Bool) (s : Surf) (l : Lightmap) :
    l ∈ sortable c sup s ↔ l ∈ s.lightmaps ∧ l.style ≤ 255 ∧ 1 ≤ l.max := by
  unfold sortable
  simp only [hc, Bool.false_and, Bool.false_eq_true, if_false, List.mem_filter]
  apply and_congr_right
  intro _
  unfold wanted INVALID_LIGHTSTYLE INVALID_LIGHTSTYLE_OLD
  simp only [hc, Bool.not_false, Bool.true_and]
  cases sup
  · simp only [Bool.false_eq_true, if_false, Bool.false_and, Bool.or_false]
    split
    · simp; omega
    · split
      · simp at *; omega
      · split
        · rename_i h; simp at h ⊢; intro _; exact h
        · rename_i h; simp at *; exact ⟨by omega, h⟩
  · simp only [if_true, Bool.true_and]
    split
    · simp; omega
    · split
      · simp at *; omega
      · split
        · rename_i h; simp at h ⊢; intro _; exact h
        · rename_i h; simp at *; exact ⟨by omega, h⟩

/-- **C110.** In Quake II every lightmap whose style fits into a byte is a candidate, and if
there is none, an unlit one with style 0 takes their place. -/
theorem sortable_q2 {c : Cfg} (hc : c.q2 = true) (sup : Bool) (s : Surf) :
    ((∀ l ∈ s.lightmaps, 255 < l.style) ∧
      sortable c sup s = [{ s.blank with style := 0, avg := 0 }]) ∨
    ((∃ l ∈ s.lightmaps, l.style ≤ 255) ∧
      ∀ l, l ∈ sortable c sup s ↔ l ∈ s.lightmaps ∧ l.style ≤ 255) := by
  have hw : ∀ l, wanted c sup l = true ↔ l.style ≤ 255 := by
    intro l
    unfold wanted INVALID_LIGHTSTYLE INVALID_LIGHTSTYLE_OLD
    simp only [hc, Bool.not_true, Bool.false_and, Bool.false_eq_true, if_false]
    cases sup
    · simp only [Bool.false_eq_true, if_false, Bool.false_and, Bool.or_false]
      split
      · simp; omega
      · split
        · simp at *; omega
        · simp at *; omega
    · simp only [if_true, Bool.true_and]
      split
      · simp; omega
      · split
        · simp at *; omega
        · simp at *; omega
  unfold sortable
  simp only [hc, Bool.true_and]
  by_cases he : (s.lightmaps.filter (wanted c sup)).isEmpty = true
  · left
    rw [if_pos he]
    refine ⟨fun l hl => ?_, rfl⟩
    rw [List.isEmpty_iff, List.filter_eq_nil_iff] at he
    have := he l hl
    rw [hw] at this
    omega
  · right
    rw [if_neg he]
    refine ⟨?_, fun l => by rw [List.mem_filter, hw]⟩
    rw [List.isEmpty_iff, List.filter_eq_nil_iff] at he
    push Not at he
    obtain ⟨l, hl, h⟩ := he
    exact ⟨l, hl, (hw l).1 h⟩

theorem kept_style_le {c : Cfg} {sup : Bool} {s : Surf} {l : Lightmap} (h : l ∈ kept c sup s) :
    l.style ≤ 255 := by
  have h := kept_mem h
  cases hc : c.q2 with
  | false => exact ((sortable_iff hc sup s l).1 h).2.1
  | true =>
    rcases sortable_q2 hc sup s with ⟨_, h2⟩ | ⟨_, h2⟩
    · rw [h2] at h
      simp only [List.mem_singleton] at h
      rw [h]
      exact Nat.zero_le _
    · exact ((h2 l).1 h).2

/-! ### The arrays of styles -/

theorem readStyles_array {n fill : Nat} {l : List Nat} (hl : l.length ≤ n) (hf : fill ∉ l) :
    readStyles fill (styleArray n fill l) = l := by
  unfold readStyles styleArray
  rw [List.take_of_length_le hl, List.takeWhile_append_of_pos]
  · have : List.takeWhile (fun x => decide (x ≠ fill)) (List.replicate (n - l.length) fill) = [] := by
      cases n - l.length <;> simp [List.replicate_succ]
    rw [this, List.append_nil]
  · intro x hx
    simp only [decide_eq_true_eq]
    rintro rfl
    exact hf hx

/-- No lightmap has the style 255, which marks the end of the list of styles in a face. -/
def No255 (fs : List Face) : Prop :=
  ∀ f ∈ fs, ∀ s, f.surf = some s → ∀ l ∈ s.lightmaps, l.style ≠ 255

theorem kept_no255 {c : Cfg} {fs : List Face} (h : No255 fs) {f : Face} (hf : f ∈ fs) {s : Surf}
    (hs : f.surf = some s) {sup : Bool} {l : Lightmap} (hl : l ∈ kept c sup s) : l.style ≠ 255 := by
  rcases sortable_mem (kept_mem hl) with rfl | ⟨h1, _⟩
  · simp
  · exact h f hf s hs l h1

/-- The fields that the second loop leaves behind. -/
theorem faceProg_fields {c : Cfg} {total : Nat} {g : List (Nat × Slot × Nat)} {i : Nat}
    {f : Face} {s : Surf} {st : List Store} {o : Out} (hs : f.surf = some s)
    (hk : faceKept c f s ≠ []) (h : faceProg c total g i f = .ok (st, o)) :
    (mode c f = .decoupled → o.face.styles = faceStyles (faceKept c f s)) ∧
    (mode c f = .plain → o.face.styles = faceStyles (faceKept c f s)) ∧
    (mode c f = .sup → o.sup.styles = supStyles (faceKept c f s) ∧
      o.face.styles = copyStyles o.sup.styles) ∧
    (mode c f = .both → o.sup.styles = supStyles (faceKept c f s) ∧
      o.face.styles = faceStyles (faceKept c f s)) := by
  have hne : (faceKept c f s).isEmpty = false := by simpa using hk
  unfold faceProg at h
  rw [hs] at h
  simp only [hne, Bool.false_eq_true, if_false] at h
  cases hm : mode c f with
  | decoupled =>
    rw [hm] at h
    simp only at h
    obtain ⟨⟨ofs, st1⟩, h1, h⟩ := Outcome.bind_eq_ok.1 h
    simp only at h
    by_cases hn : c.novanilla = true
    · rw [if_pos hn] at h
      simp only [Outcome.pure_eq, Outcome.ok.injEq, Prod.mk.injEq] at h
      obtain ⟨rfl, rfl⟩ := h
      simp
    · rw [if_neg hn] at h
      obtain ⟨⟨vofs, vst⟩, h2, h⟩ := Outcome.bind_eq_ok.1 h
      simp only [Outcome.pure_eq, Outcome.ok.injEq, Prod.mk.injEq] at h
      obtain ⟨rfl, rfl⟩ := h
      simp
  | plain =>
    rw [hm] at h
    simp only at h
    obtain ⟨⟨ofs, st1⟩, h1, h⟩ := Outcome.bind_eq_ok.1 h
    simp only [Outcome.pure_eq, Outcome.ok.injEq, Prod.mk.injEq] at h
    obtain ⟨rfl, rfl⟩ := h
    simp
  | sup =>
    rw [hm] at h
    simp only at h
    obtain ⟨⟨ofs, st1⟩, h1, h⟩ := Outcome.bind_eq_ok.1 h
    simp only [Outcome.pure_eq, Outcome.ok.injEq, Prod.mk.injEq] at h
    obtain ⟨rfl, rfl⟩ := h
    simp
  | both =>
    rw [hm] at h
    simp only at h
    obtain ⟨⟨ofs, st1⟩, h1, h⟩ := Outcome.bind_eq_ok.1 h
    obtain ⟨⟨ofs', st2⟩, h2, h⟩ := Outcome.bind_eq_ok.1 h
    simp only [Outcome.pure_eq, Outcome.ok.injEq, Prod.mk.injEq] at h
    obtain ⟨rfl, rfl⟩ := h
    simp

theorem copyStyles_sup (l : List Lightmap) (hl : l.length ≤ 16) (h : ∀ x ∈ l, x.style ≤ 255) :
    copyStyles (supStyles l) = faceStyles l := by
  unfold copyStyles supStyles faceStyles styleArray MAXLIGHTMAPS MAXLIGHTMAPSSUP
    INVALID_LIGHTSTYLE INVALID_LIGHTSTYLE_OLD
  rw [List.take_of_length_le (l := l.map Lightmap.style) (i := 16) (by simpa using hl), List.take_append,
    List.map_append]
  congr 1
  · conv_rhs => rw [← List.map_id (List.take 4 (l.map Lightmap.style))]
    apply List.map_congr_left
    intro x hx
    obtain ⟨y, hy, rfl⟩ := List.mem_map.1 (List.mem_of_mem_take hx)
    have := h y hy
    rw [if_neg (by omega)]
    rfl
  · rw [List.take_replicate, List.map_replicate]
    simp only [List.length_map, if_true]
    congr 1
    omega

/-- The styles in the face after the second loop, for a face with lightmaps. -/
theorem face_styles {c : Cfg} {total : Nat} {g : List (Nat × Slot × Nat)} {i : Nat}
    {f : Face} {s : Surf} {st : List Store} {o : Out} (hs : f.surf = some s)
    (hk : faceKept c f s ≠ []) (h : faceProg c total g i f = .ok (st, o)) :
    o.face.styles = faceStyles (faceKept c f s) := by
  obtain ⟨h1, h2, h3, h4⟩ := faceProg_fields hs hk h
  cases hm : mode c f with
  | decoupled => exact h1 hm
  | plain => exact h2 hm
  | sup =>
    rw [(h3 hm).2, (h3 hm).1]
    apply copyStyles_sup
    · have := (kept_limit c (decide (mode c f = .sup)) s).1
      unfold faceKept
      split at this <;> omega
    · intro x hx
      exact kept_style_le hx
  | both => exact (h4 hm).2

/-- **C111.** A program that reads the styles of a face up to the end mark 255 gets the styles
of its lightmaps, in the order in which the lightmaps are stored; of more than four it gets the
first four.  (Partial: as long as no light has style 255.) -/
theorem styles_recorded_partial {c : Cfg} {fs : List Face} {r : Result}
    (hrun : Run c fs (.ok r)) (hn : No255 fs) {i : Nat} {f : Face} {s : Surf}
    (hf : fs[i]? = some f) (hs : f.surf = some s) (hk : faceKept c f s ≠ []) :
    ∃ o, r.outs[i]? = some o ∧
      readStyles 255 o.face.styles = ((faceKept c f s).map Lightmap.style).take 4 := by
  cases hrun with
  | done t1 g total ps t2 hok h1 hgr hp h2 =>
    obtain ⟨hlen, hps⟩ := progs_spec _ _ _ hp
    obtain ⟨p, hpi, hfp⟩ := hps i f hf
    rw [Nat.zero_add] at hfp
    refine ⟨p.2, by simp [hpi], ?_⟩
    rw [face_styles (st := p.1) (o := p.2) hs hk hfp]
    have h255 : ∀ x ∈ (faceKept c f s).map Lightmap.style, x ≠ 255 := by
      intro x hx
      obtain ⟨l, hl, rfl⟩ := List.mem_map.1 hx
      exact kept_no255 hn (List.mem_of_getElem? hf) hs hl
    have : faceStyles (faceKept c f s) =
        styleArray 4 255 (((faceKept c f s).map Lightmap.style).take 4) := by
      unfold faceStyles styleArray MAXLIGHTMAPS INVALID_LIGHTSTYLE_OLD
      rw [List.take_take, List.length_take]
      congr 2
      omega
    rw [this]
    apply readStyles_array
    · rw [List.length_take]; omega
    · intro h
      exact h255 255 (List.mem_of_mem_take h) rfl

/-- **C111.** Without supplementary data, a face that has no lightmap is marked as such: it has
no offset and no style. -/
theorem unlit_marked {c : Cfg} {fs : List Face} {r : Result} (hrun : Run c fs (.ok r))
    (hc : c.sup = false) {i : Nat} {f : Face} (hf : fs[i]? = some f)
    (hk : ∀ s, f.surf = some s → faceKept c f s = []) :
    ∃ o, r.outs[i]? = some o ∧ o.face.lightofs = -1 ∧ o.face.styles = [255, 255, 255, 255] ∧
      (c.decoupled = true → o.dec = -1) := by
  cases hrun with
  | done t1 g total ps t2 hok h1 hgr hp h2 =>
    obtain ⟨hlen, hps⟩ := progs_spec _ _ _ hp
    obtain ⟨p, hpi, hfp⟩ := hps i f hf
    rw [Nat.zero_add] at hfp
    refine ⟨p.2, by simp [hpi], ?_⟩
    have ho : p.2 = initOut c f := by
      unfold faceProg at hfp
      cases hs : f.surf with
      | none =>
        rw [hs] at hfp
        simp only [Outcome.ok.injEq] at hfp
        rw [← hfp]
      | some s =>
        rw [hs] at hfp
        simp only [hk s hs, List.isEmpty_nil, if_true] at hfp
        have hm : mode c f = .decoupled ∨ mode c f = .plain := by
          unfold mode
          rw [hc]
          cases c.decoupled <;> simp
        rcases hm with hm | hm <;> rw [hm] at hfp <;> simp only [Outcome.ok.injEq] at hfp <;>
          rw [← hfp]
    rw [ho]
    unfold initOut
    rw [hc]
    refine ⟨rfl, rfl, ?_⟩
    intro h
    rw [h]
    rfl

end Verif.Light
