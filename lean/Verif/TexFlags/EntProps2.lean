import Verif.TexFlags.EntProps

/-!
C138 and C139, continued: what the values of the keys do.
-/

namespace Verif.TexFlags

open Verif
open Verif.EntData (Str Dict find)
open Verif.Styles (lit)

/-- A key that worldspawn gives to entities that lack it. -/
def inheritable : List String := ["_phong", "_phong_angle", "_surflight_minlight_scale"]

/-- C138: an entity that lacks `_phong`, `_phong_angle` or `_surflight_minlight_scale` gets the same flags as if it
carried the value worldspawn has. -/
theorem inherited (A : Arith) (o : EntOpts) (world e : Dict) (f : Face) (k : String) (v : Str) (hk : k ∈ inheritable)
    (he : find e (lit k) = none) (hw : find world (lit k) = some v) :
    entityFlags A o world f e = entityFlags A o world f (EntData.set e (lit k) v) := by
  have other : ∀ k', lit k' ≠ lit k → find e (lit k') = find (EntData.set e (lit k) v) (lit k') := by
    intro k' hne
    rw [EntData.find_set, if_neg hne]
  have same : find (EntData.set e (lit k) v) (lit k) = some v := by rw [EntData.find_set, if_pos rfl]
  have N : ∀ k', lit k' ≠ lit k → ∀ n, isNumber e (lit k') n = isNumber (EntData.set e (lit k) v) (lit k') n :=
    fun k' hne n => number_eq (other k' hne)
  have I : ∀ k', lit k' ≠ lit k → Styles.getInt e (lit k') = Styles.getInt (EntData.set e (lit k) v) (lit k') :=
    fun k' hne => int_eq (other k' hne)
  have H : ∀ k', lit k' ≠ lit k → EntData.has e (lit k') = EntData.has (EntData.set e (lit k) v) (lit k') :=
    fun k' hne => has_eq (other k' hne)
  have G : ∀ k', lit k' ≠ lit k → EntData.get e (lit k') = EntData.get (EntData.set e (lit k) v) (lit k') :=
    fun k' hne => get_eq (other k' hne)
  have F : ∀ k', lit k' ≠ lit k → getFloat A e (lit k') = getFloat A (EntData.set e (lit k) v) (lit k') :=
    fun k' hne => float_eq (other k' hne)
  have V : ∀ k', lit k' ≠ lit k → getVector A e (lit k') = getVector A (EntData.set e (lit k) v) (lit k') :=
    fun k' hne => vector_eq (other k' hne)
  have ne : ∀ k' ∈ allKeys, k' ≠ k → lit k' ≠ lit k := by
    intro k' hk'
    have : ∀ k ∈ inheritable, ∀ k' ∈ allKeys, k' ≠ k → lit k' ≠ lit k := by decide +kernel
    exact this k hk k' hk'
  have cases : k = "_phong" ∨ k = "_phong_angle" ∨ k = "_surflight_minlight_scale" := by simpa [inheritable] using hk
  have e1 : nativeOf o f e = nativeOf o f (EntData.set e (lit k) v) := by
    have n1 := ne "_litwater" (by decide) (by rintro rfl; revert hk; decide)
    have n2 := ne "_splitturb" (by decide) (by rintro rfl; revert hk; decide)
    simp only [nativeOf, litwater, I _ n1, I _ n2, H _ n1, H _ n2]
  have e4 : noMinlightOf f e = noMinlightOf f (EntData.set e (lit k) v) := by
    have n1 := ne "_minlight" (by decide) (by rintro rfl; revert hk; decide)
    simp only [noMinlightOf, N _ n1]
    congr 1
    funext m
    congr 2
    rw [excludeKeys_eq, List.any_map, List.any_map, Bool.eq_iff_iff, List.any_eq_true, List.any_eq_true]
    have : ∀ k' ∈ excludes, lit k' ≠ lit k := by
      intro k' hk'
      refine ne k' (by simp [allKeys, hk']) ?_
      rintro rfl
      revert hk' hk
      have : ∀ k ∈ inheritable, k ∉ excludes := by decide
      exact fun a b => this _ b a
    constructor <;>
      · rintro ⟨k', hk', hv⟩
        refine ⟨k', hk', ?_⟩
        simpa only [Function.comp_apply, G k' (this k' hk')] using hv
  have e9 : noShadowOf o f e = noShadowOf o f (EntData.set e (lit k) v) := by
    have n1 := ne "_shadow" (by decide) (by rintro rfl; revert hk; decide)
    have n2 := ne "classname" (by decide) (by rintro rfl; revert hk; decide)
    simp only [noShadowOf, I _ n1, G _ n2]
  have e10 : phongOf A world e = phongOf A world (EntData.set e (lit k) v) := by
    rcases cases with rfl | rfl | rfl
    · have n2 := ne "_phong_angle" (by decide) (by decide)
      have hi : Styles.getInt e (lit "_phong") = .ok 0 := by
        unfold Styles.getInt
        simp only [EntData.get, he]
        rfl
      have hx : Styles.getInt world (lit "_phong") = Styles.getInt (EntData.set e (lit "_phong") v) (lit "_phong") := by
        simp only [Styles.getInt, EntData.get, hw, same]
      have h1 : EntData.has e (lit "_phong") = false := by simp [EntData.has, he]
      have h2 : EntData.has world (lit "_phong") = true := by simp [EntData.has, hw]
      have h3 : EntData.has (EntData.set e (lit "_phong") v) (lit "_phong") = true := by simp [EntData.has, same]
      simp only [phongOf, hi, h1, h2, h3, hx, Bool.not_false, Bool.not_true, Bool.true_and, Bool.false_and, if_true,
        Bool.false_eq_true, if_false, Outcome.ok_bind, Outcome.pure_eq, ← H _ n2, ← F _ n2]
    · have n1 := ne "_phong" (by decide) (by decide)
      have h1 : EntData.has e (lit "_phong_angle") = false := by simp [EntData.has, he]
      have h2 : EntData.has world (lit "_phong_angle") = true := by simp [EntData.has, hw]
      have h3 : EntData.has (EntData.set e (lit "_phong_angle") v) (lit "_phong_angle") = true := by
        simp [EntData.has, same]
      have hx : getFloat A world (lit "_phong_angle") =
          getFloat A (EntData.set e (lit "_phong_angle") v) (lit "_phong_angle") := by
        simp only [getFloat, EntData.get, hw, same]
      simp only [phongOf, h1, h2, h3, hx, ← I _ n1, ← H _ n1, Bool.not_false, Bool.not_true, Bool.true_and,
        Bool.false_and, if_true, Bool.false_eq_true, if_false]
    · have n1 := ne "_phong" (by decide) (by decide)
      have n2 := ne "_phong_angle" (by decide) (by decide)
      simp only [phongOf, ← I _ n1, ← H _ n1, ← H _ n2, ← F _ n2]
  have e21 : minlightScaleOf A world e = minlightScaleOf A world (EntData.set e (lit k) v) := by
    rcases cases with rfl | rfl | rfl
    · have n1 := ne "_surflight_minlight_scale" (by decide) (by decide)
      simp only [minlightScaleOf, ← H _ n1, ← F _ n1]
    · have n1 := ne "_surflight_minlight_scale" (by decide) (by decide)
      simp only [minlightScaleOf, ← H _ n1, ← F _ n1]
    · simp only [minlightScaleOf, EntData.has, he, hw, same, getFloat, EntData.get, Option.isSome_none,
        Option.isSome_some, Bool.false_eq_true, if_false, if_true]
  have m : ∀ k' ∈ allKeys, k' ∉ inheritable → lit k' ≠ lit k := by
    intro k' hk' hn
    exact ne k' hk' (by rintro rfl; exact hn hk)
  have n2 := m "_dirt" (by decide) (by decide)
  have n3 := m "_bounce" (by decide) (by decide)
  have n5 := m "_lightignore" (by decide) (by decide)
  have n6 := m "_surflight_rescale" (by decide) (by decide)
  have n7 := m "_surflight_color" (by decide) (by decide)
  have n8 := m "_surflight_style" (by decide) (by decide)
  have n11 := m "_phong_group" (by decide) (by decide)
  have n12 := m "_surflight_group" (by decide) (by decide)
  have n13 := m "_object_channel_mask" (by decide) (by decide)
  have n14 := m "_light_twosided" (by decide) (by decide)
  have n20 := m "_surflight_targetname" (by decide) (by decide)
  have n22 := m "_phong_angle_concave" (by decide) (by decide)
  have n23 := m "_minlight" (by decide) (by decide)
  have n24 := m "_mincolor" (by decide) (by decide)
  have n24' := m "_minlight_color" (by decide) (by decide)
  have n25 := m "_light_alpha" (by decide) (by decide)
  have n26 := m "_maxlight" (by decide) (by decide)
  have n27 := m "_lightcolorscale" (by decide) (by decide)
  have n28 := m "_world_units_per_luxel" (by decide) (by decide)
  simp only [entityFlags, e1, e4, e9, e10, e21, rescaleOf, surflightColorOf, styleOf, groupOf, channelOf, twosidedOf,
    targetnameOf, concaveOf, minlightOf, minlightColorOf, alphaOf, maxlightOf, colorscaleOf, luxelOf, ← N _ n2,
    ← N _ n3, ← N _ n5, ← N _ n6, ← H _ n6, ← H _ n7, ← V _ n7, ← H _ n8, ← I _ n8, ← I _ n11, ← H _ n12, ← I _ n12,
    ← H _ n13, ← I _ n13, ← H _ n14, ← I _ n14, ← H _ n20, ← G _ n20, ← F _ n22, ← H _ n23, ← F _ n23, ← V _ n24,
    ← V _ n24', ← H _ n25, ← F _ n25, ← F _ n26, ← H _ n27, ← F _ n27, ← H _ n28, ← F _ n28]

/-- The value of a whole-number key; a missing key or a text that is no number counts as 0. -/
def IsInt (e : Dict) (k : String) (n : Int) : Prop := Styles.getInt e (lit k) = .ok n

theorem IsInt.unique {e : Dict} {k : String} {m n : Int} (h : IsInt e k m) (h' : IsInt e k n) : m = n := by
  unfold IsInt at h h'
  rw [h] at h'
  exact Outcome.ok.inj h'

theorem isNumber_iff {e : Dict} {k : String} {n : Int} {b : Bool} (h : isNumber e (lit k) n = .ok b) :
    b = true ↔ IsInt e k n := by
  unfold isNumber at h
  rw [Outcome.bind_eq_ok] at h
  obtain ⟨v, hv, hb⟩ := h
  rw [Outcome.pure_eq, Outcome.ok.injEq] at hb
  unfold IsInt
  rw [hv, ← hb]
  simp

/-- C138: the switches. Dirt, bounce light and minlight are off exactly for -1, light is ignored exactly for 1; faces of
`func_detail_illusionary` and of liquids, unless translucent in Quake 2, cast no shadow unless `_shadow` is 1, and other
faces cast one unless it is -1; minlight is also off for a texture that a `_minlight_exclude` key names. -/
theorem switches (A : Arith) (o : EntOpts) (f : Face) (world e : Dict) (g : Flags)
    (h : entityFlags A o world f e = .ok g) :
    (g.noDirt = true ↔ IsInt e "_dirt" (-1)) ∧
    (g.noBounce = true ↔ IsInt e "_bounce" (-1)) ∧
    (g.lightIgnore = true ↔ IsInt e "_lightignore" 1) ∧
    (g.noShadow = true ↔
      if Cmdlib.iequalC (lit "func_detail_illusionary") (EntData.get e (lit "classname")) = true ∨
        (f.liquid = true ∧ ¬ (o.quake2 = true ∧ (bit f.native 4 = true ∨ bit f.native 5 = true)))
      then ¬ IsInt e "_shadow" 1 else IsInt e "_shadow" (-1)) ∧
    (g.noMinlight = true ↔ IsInt e "_minlight" (-1) ∨
      ∃ k ∈ excludes, ∃ v, find e (lit k) = some v ∧ v ≠ [] ∧ Cmdlib.iequalC f.texname v = true) ∧
    (∀ n, g.surflightStyle = some n ↔ n ≠ 0 ∧ IsInt e "_surflight_style" n) ∧
    IsInt e "_phong_group" g.phongGroup ∧ IsInt e "_surflight_group" g.surflightGroup := by
  obtain ⟨a1, a2, a3, a4, a5, a6, a7, a8, a9, a10, a11, a12, a13, a14, -⟩ := flags_members h
  refine ⟨isNumber_iff a2, isNumber_iff a3, isNumber_iff a5, ?_, ?_, ?_, a11, ?_⟩
  · unfold noShadowOf at a9
    rw [Outcome.bind_eq_ok] at a9
    obtain ⟨s, hs, hb⟩ := a9
    rw [Outcome.pure_eq, Outcome.ok.injEq] at hb
    have hs' : IsInt e "_shadow" s := hs
    have h1 : ∀ n, IsInt e "_shadow" n ↔ s = n := fun n => ⟨fun hn => hs'.unique hn, fun hn => hn ▸ hs'⟩
    simp only [h1]
    rw [← hb]
    unfold translucent
    cases hq : o.quake2 <;> cases hl : f.liquid <;> cases h4 : bit f.native 4 <;> cases h5 : bit f.native 5 <;>
      cases hc : Cmdlib.iequalC (lit "func_detail_illusionary") (EntData.get e (lit "classname")) <;> simp <;> omega
  · unfold noMinlightOf at a4
    rw [Outcome.bind_eq_ok] at a4
    obtain ⟨b, hb, hm⟩ := a4
    rw [Outcome.pure_eq, Outcome.ok.injEq] at hm
    rw [← hm, Bool.or_eq_true, isNumber_iff hb, List.any_eq_true, excludeKeys_eq]
    apply or_congr_right
    constructor
    · rintro ⟨k, hk, hv⟩
      obtain ⟨s, hs, rfl⟩ := List.mem_map.mp hk
      rw [Bool.and_eq_true] at hv
      refine ⟨s, hs, ?_⟩
      cases hf : find e (lit s) with
      | none => simp [EntData.get, hf] at hv
      | some v =>
        simp only [EntData.get, hf] at hv
        exact ⟨v, rfl, by simpa using hv.1, hv.2⟩
    · rintro ⟨s, hs, v, hf, hv, hi⟩
      refine ⟨lit s, List.mem_map_of_mem hs, ?_⟩
      simp only [EntData.get, hf, hi]
      simpa using hv
  · intro n
    unfold styleOf at a8
    by_cases hh : EntData.has e (lit "_surflight_style") = true
    · rw [if_pos hh, Outcome.bind_eq_ok] at a8
      obtain ⟨m, hm, hb⟩ := a8
      rw [Outcome.pure_eq, Outcome.ok.injEq] at hb
      have hm' : IsInt e "_surflight_style" m := hm
      rw [← hb]
      constructor
      · intro hs
        by_cases h0 : m ≠ 0
        · rw [if_pos h0] at hs
          cases hs
          exact ⟨h0, hm'⟩
        · rw [if_neg h0] at hs; cases hs
      · rintro ⟨h0, hn⟩
        obtain rfl := hm'.unique hn
        rw [if_pos h0]
    · rw [if_neg hh, Outcome.pure_eq, Outcome.ok.injEq] at a8
      rw [← a8]
      have h0 : IsInt e "_surflight_style" 0 := by
        have : find e (lit "_surflight_style") = none := by
          cases hf : find e (lit "_surflight_style") with
          | none => rfl
          | some v => simp [EntData.has, hf] at hh
        unfold IsInt Styles.getInt
        simp only [EntData.get, this]
        rfl
      constructor
      · intro hs; cases hs
      · rintro ⟨hne, hn⟩
        exact absurd (h0.unique hn).symm hne
  · unfold groupOf at a12
    by_cases hh : EntData.has e (lit "_surflight_group") = true
    · rw [if_pos hh] at a12
      exact a12
    · rw [if_neg hh, Outcome.ok.injEq] at a12
      have : find e (lit "_surflight_group") = none := by
        cases hf : find e (lit "_surflight_group") with
        | none => rfl
        | some v => simp [EntData.has, hf] at hh
      rw [← a12]
      unfold IsInt Styles.getInt
      simp only [EntData.get, this]
      rfl

end Verif.TexFlags
