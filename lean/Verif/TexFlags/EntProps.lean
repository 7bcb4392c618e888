import Verif.TexFlags.EntModel
import Verif.TexFlags.Spec
import Verif.EntData.DictProps

/-!
C138 and C139: which keys of an entity give a face which surface flags.
-/

namespace Verif.TexFlags

open Verif
open Verif.EntData (Str Dict find get has)
open Verif.Styles (lit)

/-- Two entities have the same values under some keys, or the keys are missing in both. -/
def Agree (ks : List String) (e e' : Dict) : Prop := ∀ k ∈ ks, find e (lit k) = find e' (lit k)

/-- The keys that exclude textures from minlight. -/
def excludes : List String :=
  ["_minlight_exclude", "_minlight_exclude1", "_minlight_exclude2", "_minlight_exclude3", "_minlight_exclude4",
   "_minlight_exclude5", "_minlight_exclude6", "_minlight_exclude7", "_minlight_exclude8", "_minlight_exclude9"]

theorem excludeKeys_eq : excludeKeys = excludes.map lit := by decide +kernel

section
variable {e e' : Dict} {k : Str}

theorem get_eq (h : find e k = find e' k) : get e k = get e' k := by simp only [EntData.get, h]
theorem has_eq (h : find e k = find e' k) : has e k = has e' k := by simp only [has, h]
theorem int_eq (h : find e k = find e' k) : Styles.getInt e k = Styles.getInt e' k := by
  simp only [Styles.getInt, get_eq h]
theorem float_eq {A : Arith} (h : find e k = find e' k) : getFloat A e k = getFloat A e' k := by
  simp only [getFloat, get_eq h]
theorem vector_eq {A : Arith} (h : find e k = find e' k) : getVector A e k = getVector A e' k := by
  simp only [getVector, get_eq h]
theorem number_eq {n : Int} (h : find e k = find e' k) : isNumber e k n = isNumber e' k n := by
  simp only [isNumber, int_eq h]

end

/-- The members of the result. -/
theorem flags_members {A : Arith} {o : EntOpts} {world : Dict} {f : Face} {e : Dict} {g : Flags}
    (h : entityFlags A o world f e = .ok g) :
    nativeOf o f e = .ok g.native ∧ isNumber e (lit "_dirt") (-1) = .ok g.noDirt ∧
    isNumber e (lit "_bounce") (-1) = .ok g.noBounce ∧ noMinlightOf f e = .ok g.noMinlight ∧
    isNumber e (lit "_lightignore") 1 = .ok g.lightIgnore ∧ rescaleOf e = .ok g.surflightRescale ∧
    surflightColorOf A e = .ok g.surflightColor ∧ styleOf e = .ok g.surflightStyle ∧
    noShadowOf o f e = .ok g.noShadow ∧ phongOf A world e = .ok g.phongAngle ∧
    Styles.getInt e (lit "_phong_group") = .ok g.phongGroup ∧ groupOf e = .ok g.surflightGroup ∧
    channelOf e = .ok g.objectChannelMask ∧ twosidedOf e = .ok g.lightTwosided ∧
    g.isNodraw = nodrawOf o f ∧ g.isHint = hintOf o f ∧ g.isHintskip = false ∧ g.noPhong = false ∧
    g.noExpand = isNoExpandName f.texname ∧
    g.surflightTargetname = targetnameOf e ∧ g.surflightMinlightScale = minlightScaleOf A world e ∧
    g.phongAngleConcave = concaveOf A e ∧ g.minlight = minlightOf A e ∧ g.minlightColor = minlightColorOf A e ∧
    g.lightAlpha = alphaOf A e ∧ g.maxlight = maxlightOf A e ∧ g.lightcolorscale = colorscaleOf A e ∧
    g.worldUnitsPerLuxel = luxelOf A e := by
  simp only [entityFlags, Outcome.bind_eq_ok, Outcome.pure_eq, Outcome.ok.injEq] at h
  obtain ⟨a1, h1, a2, h2, a3, h3, a4, h4, a5, h5, a6, h6, a7, h7, a8, h8, a9, h9, a10, h10, a11, h11, a12, h12, a13, h13,
    a14, h14, rfl⟩ := h
  exact ⟨h1, h2, h3, h4, h5, h6, h7, h8, h9, h10, h11, h12, h13, h14, rfl, rfl, rfl, rfl, rfl, rfl, rfl, rfl, rfl, rfl,
    rfl, rfl, rfl, rfl⟩

/-- C138: each flag of a face depends on its texture, its contents and the options, and of the keys of its entity and of
worldspawn only on those named here; in particular no other key has any effect. -/
theorem keys_matter (A : Arith) (o : EntOpts) (f : Face) (world world' e e' : Dict) (g g' : Flags)
    (h : entityFlags A o world f e = .ok g) (h' : entityFlags A o world' f e' = .ok g') :
    (Agree ["_litwater", "_splitturb"] e e' → g.native = g'.native) ∧
    (g.isNodraw = g'.isNodraw ∧ g.isHint = g'.isHint ∧ g.isHintskip = g'.isHintskip ∧ g.noExpand = g'.noExpand ∧
      g.noPhong = g'.noPhong) ∧
    (Agree ["_dirt"] e e' → g.noDirt = g'.noDirt) ∧
    (Agree ["_shadow", "classname"] e e' → g.noShadow = g'.noShadow) ∧
    (Agree ["_bounce"] e e' → g.noBounce = g'.noBounce) ∧
    (Agree ("_minlight" :: excludes) e e' → g.noMinlight = g'.noMinlight) ∧
    (Agree ["_lightignore"] e e' → g.lightIgnore = g'.lightIgnore) ∧
    (Agree ["_surflight_rescale"] e e' → g.surflightRescale = g'.surflightRescale) ∧
    (Agree ["_surflight_style"] e e' → g.surflightStyle = g'.surflightStyle) ∧
    (Agree ["_surflight_targetname"] e e' → g.surflightTargetname = g'.surflightTargetname) ∧
    (Agree ["_surflight_color"] e e' → g.surflightColor = g'.surflightColor) ∧
    (Agree ["_surflight_minlight_scale"] e e' → Agree ["_surflight_minlight_scale"] world world' →
      g.surflightMinlightScale = g'.surflightMinlightScale) ∧
    (Agree ["_phong", "_phong_angle"] e e' → Agree ["_phong", "_phong_angle"] world world' →
      g.phongAngle = g'.phongAngle) ∧
    (Agree ["_phong_angle_concave"] e e' → g.phongAngleConcave = g'.phongAngleConcave) ∧
    (Agree ["_phong_group"] e e' → g.phongGroup = g'.phongGroup) ∧
    (Agree ["_minlight"] e e' → g.minlight = g'.minlight) ∧
    (Agree ["_mincolor", "_minlight_color"] e e' → g.minlightColor = g'.minlightColor) ∧
    (Agree ["_light_alpha"] e e' → g.lightAlpha = g'.lightAlpha) ∧
    (Agree ["_light_twosided"] e e' → g.lightTwosided = g'.lightTwosided) ∧
    (Agree ["_maxlight"] e e' → g.maxlight = g'.maxlight) ∧
    (Agree ["_lightcolorscale"] e e' → g.lightcolorscale = g'.lightcolorscale) ∧
    (Agree ["_surflight_group"] e e' → g.surflightGroup = g'.surflightGroup) ∧
    (Agree ["_world_units_per_luxel"] e e' → g.worldUnitsPerLuxel = g'.worldUnitsPerLuxel) ∧
    (Agree ["_object_channel_mask"] e e' → g.objectChannelMask = g'.objectChannelMask) := by
  obtain ⟨a1, a2, a3, a4, a5, a6, a7, a8, a9, a10, a11, a12, a13, a14, a15, a16, a17, a18, a19, a20, a21, a22, a23, a24,
    a25, a26, a27, a28⟩ := flags_members h
  obtain ⟨b1, b2, b3, b4, b5, b6, b7, b8, b9, b10, b11, b12, b13, b14, b15, b16, b17, b18, b19, b20, b21, b22, b23, b24,
    b25, b26, b27, b28⟩ := flags_members h'
  have ok : ∀ {α : Type} {x y : Outcome α} {u v : α}, x = .ok u → y = .ok v → x = y → u = v := by
    intro α x y u v hx hy hxy
    rw [hx, hy] at hxy
    exact Outcome.ok.inj hxy
  refine ⟨?_, ⟨a15.trans b15.symm, a16.trans b16.symm, a17.trans b17.symm, a19.trans b19.symm, a18.trans b18.symm⟩,
    ?_, ?_, ?_, ?_, ?_, ?_, ?_, ?_, ?_, ?_, ?_, ?_, ?_, ?_, ?_, ?_, ?_, ?_, ?_, ?_, ?_, ?_⟩
  · intro H
    have k1 := H "_litwater" (by simp)
    have k2 := H "_splitturb" (by simp)
    exact ok a1 b1 (by simp only [nativeOf, litwater, has_eq k1, has_eq k2, int_eq k1, int_eq k2])
  · exact fun H => ok a2 b2 (number_eq (H _ (by simp)))
  · intro H
    have k1 := H "_shadow" (by simp)
    have k2 := H "classname" (by simp)
    exact ok a9 b9 (by simp only [noShadowOf, int_eq k1, get_eq k2])
  · exact fun H => ok a3 b3 (number_eq (H _ (by simp)))
  · intro H
    have k1 := H "_minlight" (by simp)
    refine ok a4 b4 ?_
    simp only [noMinlightOf, number_eq k1]
    congr 1
    funext m
    congr 2
    rw [excludeKeys_eq, List.any_map, List.any_map]
    rw [Bool.eq_iff_iff, List.any_eq_true, List.any_eq_true]
    constructor <;>
      · rintro ⟨k, hk, hv⟩
        refine ⟨k, hk, ?_⟩
        have := get_eq (H k (List.mem_cons_of_mem _ hk))
        simpa only [Function.comp_apply, this] using hv
  · exact fun H => ok a5 b5 (number_eq (H _ (by simp)))
  · intro H
    have k1 := H _ (List.mem_singleton.mpr rfl)
    exact ok a6 b6 (by simp only [rescaleOf, has_eq k1, number_eq k1])
  · intro H
    have k1 := H _ (List.mem_singleton.mpr rfl)
    exact ok a8 b8 (by simp only [styleOf, has_eq k1, int_eq k1])
  · intro H
    have k1 := H _ (List.mem_singleton.mpr rfl)
    rw [a20, b20]
    simp only [targetnameOf, has_eq k1, get_eq k1]
  · intro H
    have k1 := H _ (List.mem_singleton.mpr rfl)
    exact ok a7 b7 (by simp only [surflightColorOf, has_eq k1, vector_eq k1])
  · intro H W
    have k1 := H _ (List.mem_singleton.mpr rfl)
    have w1 := W _ (List.mem_singleton.mpr rfl)
    rw [a21, b21]
    simp only [minlightScaleOf, has_eq k1, float_eq k1, has_eq w1, float_eq w1]
  · intro H W
    have k1 := H "_phong" (by simp)
    have k2 := H "_phong_angle" (by simp)
    have w1 := W "_phong" (by simp)
    have w2 := W "_phong_angle" (by simp)
    exact ok a10 b10 (by simp only [phongOf, int_eq k1, has_eq k1, has_eq k2, float_eq k2, int_eq w1, has_eq w1,
      has_eq w2, float_eq w2])
  · intro H
    have k1 := H _ (List.mem_singleton.mpr rfl)
    rw [a22, b22]
    simp only [concaveOf, float_eq k1]
  · exact fun H => ok a11 b11 (int_eq (H _ (by simp)))
  · intro H
    have k1 := H _ (List.mem_singleton.mpr rfl)
    rw [a23, b23]
    simp only [minlightOf, has_eq k1, float_eq k1]
  · intro H
    have k1 := H "_mincolor" (by simp)
    have k2 := H "_minlight_color" (by simp)
    rw [a24, b24]
    simp only [minlightColorOf, vector_eq k1, vector_eq k2]
  · intro H
    have k1 := H _ (List.mem_singleton.mpr rfl)
    rw [a25, b25]
    simp only [alphaOf, has_eq k1, float_eq k1]
  · intro H
    have k1 := H _ (List.mem_singleton.mpr rfl)
    exact ok a14 b14 (by simp only [twosidedOf, has_eq k1, int_eq k1])
  · intro H
    have k1 := H _ (List.mem_singleton.mpr rfl)
    rw [a26, b26]
    simp only [maxlightOf, float_eq k1]
  · intro H
    have k1 := H _ (List.mem_singleton.mpr rfl)
    rw [a27, b27]
    simp only [colorscaleOf, has_eq k1, float_eq k1]
  · intro H
    have k1 := H _ (List.mem_singleton.mpr rfl)
    exact ok a12 b12 (by simp only [groupOf, has_eq k1, int_eq k1])
  · intro H
    have k1 := H _ (List.mem_singleton.mpr rfl)
    rw [a28, b28]
    simp only [luxelOf, has_eq k1, float_eq k1]
  · intro H
    have k1 := H _ (List.mem_singleton.mpr rfl)
    exact ok a13 b13 (by simp only [channelOf, has_eq k1, int_eq k1])

/-- What is used of the arithmetic: zero is zero, and becomes the `float` zero; numbers compare as numbers; the vector of
an empty text is zero and stands for no colour. -/
structure Arith.Lawful (A : Arith) : Prop where
  zero : A.eq (A.nat 0) (A.nat 0) = true
  narrow : A.narrow (A.nat 0) = 0#32
  lt : ∀ m n : Nat, A.lt (A.nat m) (A.nat n) = decide (m < n)
  empty : A.scan [] = (0, 0#32, 0#32, 0#32)
  black : A.colour (0#32, 0#32, 0#32) = (0, 0, 0)

/-- The keys that have an effect. -/
def allKeys : List String :=
  ["_litwater", "_splitturb", "_dirt", "_shadow", "classname", "_bounce", "_minlight"] ++ excludes ++
  ["_lightignore", "_surflight_rescale", "_surflight_style", "_surflight_targetname", "_surflight_color",
   "_surflight_minlight_scale", "_phong", "_phong_angle", "_phong_angle_concave", "_phong_group", "_mincolor",
   "_minlight_color", "_light_alpha", "_light_twosided", "_maxlight", "_lightcolorscale", "_surflight_group",
   "_world_units_per_luxel", "_object_channel_mask"]

/-- C138: on an entity with none of these keys, a face with an ordinary texture and solid contents has the default
flags, in a map whose worldspawn has none of the keys that are inherited. -/
theorem plain_entity (A : Arith) (hA : A.Lawful) (o : EntOpts) (ho : o.splitturb = true ∨ o.quake2 = true)
    (f : Face) (world e : Dict)
    (he : ∀ k ∈ allKeys, find e (lit k) = none)
    (hw : ∀ k ∈ ["_phong", "_phong_angle", "_surflight_minlight_scale"], find world (lit k) = none)
    (hf : f.liquid = false) (hn : f.native = 0) (hskip : isSkipName o f.texname = false)
    (hhint : isHintName f.texname = false) (hexp : isNoExpandName f.texname = false)
    (hsky : Cmdlib.iequalC (f.texname.take 3) (lit "sky") = false) :
    entityFlags A o world f e = .ok {} := by
  have G : ∀ k ∈ allKeys, get e (lit k) = [] ∧ has e (lit k) = false ∧ Styles.getInt e (lit k) = .ok 0 ∧
      getFloat A e (lit k) = A.nat 0 ∧ getVector A e (lit k) = (0, 0#32, 0#32, 0#32) := by
    intro k hk
    have hg : get e (lit k) = [] := by simp only [EntData.get, he k hk]
    refine ⟨hg, by simp only [has, he k hk, Option.isSome_none], ?_, ?_, ?_⟩
    · unfold Styles.getInt
      rw [hg]
      rfl
    · simp [getFloat, hg]
    · simp [getVector, hg, hA.empty]
  have W1 : has world (lit "_phong") = false := by simp [has, hw "_phong" (by simp)]
  have W2 : has world (lit "_phong_angle") = false := by simp [has, hw "_phong_angle" (by simp)]
  have W3 : has world (lit "_surflight_minlight_scale") = false := by
    simp [has, hw "_surflight_minlight_scale" (by simp)]
  have I : ∀ k ∈ allKeys, ∀ n : Int, n ≠ 0 → isNumber e (lit k) n = .ok false := by
    intro k hk n hn
    simp [isNumber, (G k hk).2.2.1, hn.symm]
  have hbit : ∀ n, bit 0 n = false := by intro n; simp [bit]
  have hnat : nativeOf o f e = .ok 0 := by
    unfold nativeOf litwater
    rw [(G "_litwater" (by decide)).2.1, (G "_splitturb" (by decide)).2.1]
    rcases ho with ho | ho
    · cases hq : o.quake2
      · simp [ho, isSpecialName, hsky]
      · simp [hn]
    · simp [ho, hn]
  have hmin : noMinlightOf f e = .ok false := by
    have hall : (excludeKeys.any fun k => !(get e k).isEmpty && Cmdlib.iequalC f.texname (get e k)) = false := by
      rw [List.any_eq_false]
      intro k hk
      rw [excludeKeys_eq, List.mem_map] at hk
      obtain ⟨s, hs, rfl⟩ := hk
      rw [(G s (by simp [allKeys, hs])).1]
      simp
    simp [noMinlightOf, I "_minlight" (by decide) (-1) (by decide), hall]
  have hclass : Cmdlib.iequalC (lit "func_detail_illusionary") (get e (lit "classname")) = false := by
    rw [(G "classname" (by decide)).1]
    decide +kernel
  have hclamp : ∀ hi, clamp A (A.nat 0) 0 hi = A.nat 0 := by
    intro hi
    simp [clamp, hA.lt]
  have hconc : concaveOf A e = 0#32 := by
    simp [concaveOf, (G "_phong_angle_concave" (by decide)).2.2.2.1, hclamp, hA.narrow]
  have hphong : phongOf A world e = .ok 0#32 := by
    simp [phongOf, (G "_phong" (by decide)).2.2.1, W1, W2, (G "_phong_angle" (by decide)).2.2.2.1, hA.zero]
  have hmc : minlightColorOf A e = (0, 0, 0) := by
    simp [minlightColorOf, (G "_mincolor" (by decide)).2.2.2.2, (G "_minlight_color" (by decide)).2.2.2.2, hA.black]
  have hmax : maxlightOf A e = 0#32 := by
    simp [maxlightOf, (G "_maxlight" (by decide)).2.2.2.1, hA.lt]
  simp only [entityFlags, hnat, I "_dirt" (by decide) (-1) (by decide), I "_bounce" (by decide) (-1) (by decide), hmin,
    I "_lightignore" (by decide) 1 (by decide), rescaleOf, surflightColorOf, styleOf, noShadowOf, hphong, groupOf,
    channelOf, twosidedOf, (G "_surflight_rescale" (by decide)).2.1, (G "_surflight_color" (by decide)).2.1,
    (G "_surflight_style" (by decide)).2.1, (G "_shadow" (by decide)).2.2.1, (G "_phong_group" (by decide)).2.2.1,
    (G "_surflight_group" (by decide)).2.1, (G "_object_channel_mask" (by decide)).2.1,
    (G "_light_twosided" (by decide)).2.1, hclass, hf, nodrawOf, hintOf, hn, hbit, hskip, hhint, hexp, targetnameOf,
    (G "_surflight_targetname" (by decide)).2.1, minlightScaleOf, (G "_surflight_minlight_scale" (by decide)).2.1, W3,
    hconc, minlightOf, (G "_minlight" (by decide)).2.1, hmc, alphaOf, (G "_light_alpha" (by decide)).2.1, hmax,
    colorscaleOf, (G "_lightcolorscale" (by decide)).2.1, luxelOf, (G "_world_units_per_luxel" (by decide)).2.1,
    Outcome.ok_bind, Outcome.pure_eq, Bool.false_and, Bool.false_eq_true, if_false, Bool.and_false, Bool.or_false]
  simp

end Verif.TexFlags
