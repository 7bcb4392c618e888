import Verif.Light.StyleProps

/-!
What a program that knows the lumps LMSTYLE, LMSTYLE16 and LMOFFSET reads.
-/

namespace Verif.Light

theorem le_foldl_max : ∀ (l : List Nat) (a : Nat), a ≤ l.foldl max a ∧ ∀ x ∈ l, x ≤ l.foldl max a := by
  intro l
  induction l with
  | nil => intro a; simp
  | cons y l ih =>
    intro a
    obtain ⟨h1, h2⟩ := ih (max a y)
    refine ⟨le_trans (Nat.le_max_left a y) h1, fun x hx => ?_⟩
    rw [List.mem_cons] at hx
    rcases hx with rfl | hx
    · exact le_trans (Nat.le_max_right a x) h1
    · exact h2 x hx

theorem foldl_max_le : ∀ (l : List Nat) (a b : Nat), a ≤ b → (∀ x ∈ l, x ≤ b) → l.foldl max a ≤ b := by
  intro l
  induction l with
  | nil => intro a b h _; exact h
  | cons y l ih =>
    intro a b h h2
    exact ih _ _ (Nat.max_le.2 ⟨h, h2 y List.mem_cons_self⟩)
      (fun x hx => h2 x (List.mem_cons_of_mem _ hx))

theorem readStyles_take {n fill N : Nat} {l : List Nat} (hN : l.length ≤ N) (hn : N ≤ n)
    (hf : fill ∉ l) : readStyles fill ((styleArray n fill l).take N) = l := by
  have : (styleArray n fill l).take N = styleArray N fill l := by
    unfold styleArray
    rw [List.take_of_length_le (i := n) (by omega), List.take_of_length_le (i := N) hN,
      List.take_append, List.take_of_length_le hN, List.take_replicate]
    congr 2
    omega
  rw [this]
  exact readStyles_array hN hf

/-- The supplementary fields are those of a list of lightmaps. -/
theorem faceProg_sup {c : Cfg} (hc : c.sup = true) (hd : c.decoupled = false) {total : Nat}
    {g : List (Nat × Slot × Nat)} {i : Nat} {f : Face} {st : List Store} {o : Out}
    (h : faceProg c total g i f = .ok (st, o)) :
    ∃ L : List Lightmap, o.sup.styles = supStyles L ∧ L.length ≤ 16 ∧
      (0 ≤ c.facestyles → (L.length : Int) ≤ c.facestyles) ∧ (∀ x ∈ L, x.style ≤ 255) ∧
      ∀ s, f.surf = some s → L = faceKept c f s := by
  have hm : mode c f = .sup ∨ mode c f = .both := by
    unfold mode
    rw [hc, hd]
    cases (c.novanilla || f.scaleEq) <;> simp
  cases hs : f.surf with
  | none =>
    unfold faceProg at h
    rw [hs] at h
    simp only [Outcome.ok.injEq, Prod.mk.injEq] at h
    refine ⟨[], ?_, by simp, by simp, by simp, by simp⟩
    rw [← h.2]
    unfold initOut
    rw [hc]
    rfl
  | some s =>
    refine ⟨faceKept c f s, ?_, ?_, ?_, ?_, ?_⟩
    · by_cases hk : faceKept c f s = []
      · unfold faceProg at h
        rw [hs] at h
        simp only [hk, List.isEmpty_nil, if_true] at h
        rw [hk]
        rcases hm with hm | hm <;> rw [hm] at h <;>
          simp only [Outcome.ok.injEq, Prod.mk.injEq] at h <;> rw [← h.2] <;> unfold initOut <;>
          rw [hc] <;> rfl
      · obtain ⟨-, -, h3, h4⟩ := faceProg_fields hs hk h
        rcases hm with hm | hm
        · exact (h3 hm).1
        · exact (h4 hm).1
    · have := (kept_limit c (decide (mode c f = .sup)) s).1
      unfold faceKept
      split at this <;> omega
    · exact (kept_limit c (decide (mode c f = .sup)) s).2
    · intro x hx
      exact kept_style_le hx
    · intro s' hs'
      simp only [Option.some.injEq] at hs'
      rw [hs']

theorem usedStyles_sup {o : Out} {L : List Lightmap} (h : o.sup.styles = supStyles L)
    (hl : L.length ≤ 16) (hs : ∀ x ∈ L, x.style ≤ 255) :
    usedStyles o = L.map Lightmap.style := by
  unfold usedStyles
  rw [h]
  refine readStyles_take (n := 16) (fill := 65535) (N := 16) (by simpa using hl) (le_refl _) ?_
  intro hm
  obtain ⟨x, hx, hx'⟩ := List.mem_map.1 hm
  have := hs x hx
  omega

/-- **C112.** With supplementary data, a program that knows the lumps LMSTYLE16, LMSTYLE and
LMOFFSET reads for every face with lightmaps exactly the styles of these lightmaps and the offset
that is recorded for them in the supplementary data.  (Partial: as long as no light has style
255.) -/
theorem lumps_readable_partial {c : Cfg} {fs : List Face} {r : Result} (hrun : Run c fs (.ok r))
    (hc : c.sup = true) (hd : c.decoupled = false) (h0 : 0 ≤ c.facestyles) (hn : No255 fs) :
    ∃ l, writeLumps c.facestyles r.outs = .ok l ∧
      ∀ i f s, fs[i]? = some f → f.surf = some s → faceKept c f s ≠ [] →
        lumpStyles l r.outs i = some ((faceKept c f s).map Lightmap.style) ∧
        ∃ o, r.outs[i]? = some o ∧ lumpOffset l r.outs i = some (ownOffset c f o) := by
  cases hrun with
  | done t1 g total ps t2 hok h1 hgr hp h2 =>
    obtain ⟨hlen, hps⟩ := progs_spec _ _ _ hp
    simp only
    have hout : ∀ (i : Nat) (f : Face), fs[i]? = some f → ∃ p, ps[i]? = some p ∧
        faceProg c total g i f = .ok p := by
      intro i f hf
      obtain ⟨p, hpi, hfp⟩ := hps i f hf
      exact ⟨p, hpi, by rw [← hfp, Nat.zero_add]⟩
    generalize houts : ps.map Prod.snd = outs
    -- the supplementary styles of every face
    have hall : ∀ o ∈ outs, ∃ L : List Lightmap, o.sup.styles = supStyles L ∧ L.length ≤ 16 ∧
        (L.length : Int) ≤ c.facestyles ∧ (∀ x ∈ L, x.style ≤ 255) := by
      intro o ho
      rw [← houts] at ho
      obtain ⟨p, hp', rfl⟩ := List.mem_map.1 ho
      obtain ⟨i, hi, hpi⟩ := List.getElem_of_mem hp'
      have hif : i < fs.length := by omega
      obtain ⟨p', hpi', hfp⟩ := hout i fs[i] (List.getElem?_eq_getElem hif)
      have : p' = p := by
        rw [List.getElem?_eq_getElem hi, hpi] at hpi'
        simpa using hpi'.symm
      subst this
      obtain ⟨L, g1, g2, g3, g4, _⟩ := faceProg_sup (st := p'.1) (o := p'.2) hc hd hfp
      exact ⟨L, g1, g2, g3 h0, g4⟩
    have hper : (if (stylesPerFace outs : Int) ≥ c.facestyles then c.facestyles
        else stylesPerFace outs) = stylesPerFace outs := by
      have : (stylesPerFace outs) ≤ c.facestyles.toNat := by
        apply foldl_max_le
        · omega
        · intro x hx
          obtain ⟨o, ho, rfl⟩ := List.mem_map.1 hx
          obtain ⟨L, g1, g2, g3, g4⟩ := hall o ho
          rw [usedStyles_sup g1 g2 g4, List.length_map]
          omega
      split <;> omega
    have hper16 : stylesPerFace outs ≤ 16 := by
      apply foldl_max_le
      · omega
      · intro x hx
        obtain ⟨o, ho, rfl⟩ := List.mem_map.1 hx
        obtain ⟨L, g1, g2, g3, g4⟩ := hall o ho
        rw [usedStyles_sup g1 g2 g4, List.length_map]
        omega
    -- one face with lightmaps
    have hface : ∀ (i : Nat) (f : Face) (s : Surf), fs[i]? = some f → f.surf = some s → faceKept c f s ≠ [] →
        ∃ o, outs[i]? = some o ∧ o.sup.styles = supStyles (faceKept c f s) ∧
          (faceKept c f s).length ≤ stylesPerFace outs ∧ (faceKept c f s).length ≤ 16 ∧
          (∀ x ∈ faceKept c f s, x.style ≤ 255 ∧ x.style ≠ 255 ∧ x.style ≤ maxStyle outs) ∧
          o.face.styles = faceStyles (faceKept c f s) ∧
          ownOffset c f o = o.sup.lightofs := by
      intro i f s hf hs hk
      obtain ⟨p, hpi, hfp⟩ := hout i f hf
      have hm : mode c f = .sup ∨ mode c f = .both := by
        unfold mode
        rw [hc, hd]
        cases (c.novanilla || f.scaleEq) <;> simp
      obtain ⟨L, g1, g2, g3, g4, g5⟩ := faceProg_sup (st := p.1) (o := p.2) hc hd hfp
      rw [g5 s hs] at g1 g2 g3 g4
      have hou : outs[i]? = some p.2 := by rw [← houts]; simp [hpi]
      have hmem : p.2 ∈ outs := List.mem_of_getElem? hou
      have hus := usedStyles_sup g1 g2 g4
      refine ⟨p.2, hou, g1, ?_, g2, fun x hx => ⟨g4 x hx, ?_, ?_⟩,
        face_styles (st := p.1) (o := p.2) hs hk hfp, ?_⟩
      · have := (le_foldl_max (outs.map (fun o => (usedStyles o).length)) 0).2 _
          (List.mem_map_of_mem (f := fun o => (usedStyles o).length) hmem)
        rw [hus, List.length_map] at this
        exact this
      · exact kept_no255 hn (List.mem_of_getElem? hf) hs hx
      · apply (le_foldl_max (outs.flatMap usedStyles) 0).2
        rw [List.mem_flatMap]
        exact ⟨p.2, hmem, by rw [hus]; exact List.mem_map_of_mem hx⟩
      · unfold ownOffset
        rcases hm with hm | hm <;> rw [hm]
    -- the offsets do not depend on the lumps for the styles
    have hofs : ∀ (a b : Option (List (List Nat))) (i : Nat) (o : Out), outs[i]? = some o →
        lumpOffset ⟨a, b, if outs.any (fun o => decide (o.face.lightofs ≠ o.sup.lightofs)) = true
          then some (outs.map (fun o => o.sup.lightofs)) else none⟩ outs i =
          some o.sup.lightofs := by
      intro a b i o ho
      by_cases hno : outs.any (fun o => decide (o.face.lightofs ≠ o.sup.lightofs)) = true
      · rw [if_pos hno]
        simp [lumpOffset, ho]
      · rw [if_neg hno]
        simp only [lumpOffset, ho, Option.map_some, Option.some.injEq]
        rw [Bool.not_eq_true, List.any_eq_false] at hno
        have := hno o (List.mem_of_getElem? ho)
        simpa using this
    unfold writeLumps
    simp only
    rw [hper]
    by_cases hneed : (outs.any stylesDiffer || decide ((stylesPerFace outs : Int) > 4)) = true
    · rw [if_pos hneed, if_neg (by omega)]
      by_cases hmx : maxStyle outs ≥ INVALID_LIGHTSTYLE_OLD
      · rw [if_pos hmx]
        refine ⟨_, rfl, fun i f s hf hs hk => ?_⟩
        obtain ⟨o, ho, g1, g2, g3, g4, g5, g6⟩ := hface i f s hf hs hk
        refine ⟨?_, o, ho, by rw [hofs _ _ i o ho, g6]⟩
        simp only [lumpStyles, List.getElem?_map, ho, Option.map_some, Option.some.injEq,
          Int.toNat_natCast]
        rw [g1]
        refine readStyles_take (n := 16) (by simpa using g2) hper16 ?_
        intro hm
        obtain ⟨x, hx, hx'⟩ := List.mem_map.1 hm
        have := (g4 x hx).1
        unfold INVALID_LIGHTSTYLE at hx'
        omega
      · rw [if_neg hmx]
        refine ⟨_, rfl, fun i f s hf hs hk => ?_⟩
        obtain ⟨o, ho, g1, g2, g3, g4, g5, g6⟩ := hface i f s hf hs hk
        refine ⟨?_, o, ho, by rw [hofs _ _ i o ho, g6]⟩
        simp only [lumpStyles, List.getElem?_map, ho, Option.map_some, Option.some.injEq,
          Int.toNat_natCast]
        rw [g1]
        have : ((supStyles (faceKept c f s)).take (stylesPerFace outs)).map
            (fun x => if x = INVALID_LIGHTSTYLE then INVALID_LIGHTSTYLE_OLD else x) =
            (styleArray 16 255 ((faceKept c f s).map Lightmap.style)).take (stylesPerFace outs) := by
          rw [List.map_take]
          congr 1
          unfold supStyles styleArray MAXLIGHTMAPSSUP INVALID_LIGHTSTYLE INVALID_LIGHTSTYLE_OLD
          rw [List.map_append, List.map_replicate]
          congr 1
          rw [List.take_of_length_le (by simpa using g3), List.map_map]
          apply List.map_congr_left
          intro x hx
          have := (g4 x hx).1
          simp only [Function.comp]
          rw [if_neg (by omega)]
        rw [this]
        refine readStyles_take (n := 16) (by simpa using g2) hper16 ?_
        intro hm
        obtain ⟨x, hx, hx'⟩ := List.mem_map.1 hm
        exact (g4 x hx).2.1 hx'
    · rw [if_neg hneed]
      refine ⟨_, rfl, fun i f s hf hs hk => ?_⟩
      obtain ⟨o, ho, g1, g2, g3, g4, g5, g6⟩ := hface i f s hf hs hk
      refine ⟨?_, o, ho, by rw [hofs _ _ i o ho, g6]⟩
      simp only [lumpStyles, ho, Option.map_some, Option.some.injEq]
      rw [g5]
      have h4 : stylesPerFace outs ≤ 4 := by
        rw [Bool.or_eq_true] at hneed
        push Not at hneed
        have := hneed.2
        simp only [ne_eq, decide_eq_true_eq] at this
        omega
      apply readStyles_array
      · show _ ≤ 4
        rw [List.length_map]
        omega
      · intro hm
        obtain ⟨x, hx, hx'⟩ := List.mem_map.1 hm
        exact (g4 x hx).2.1 hx'

end Verif.Light
