import Verif.Light.ScaleProps
import Verif.Light.LitOnlyProps
import Verif.Light.Example

/-!
Examples for the treatment of single lightmaps and for `-litonly`, and what goes wrong.
-/

namespace Verif.Light.ImgEx

/-- A visible sample. -/
def vis (r g b : ℚ) : Px := ⟨![r, g, b], true⟩
/-- A sample that sees nothing. -/
def hid : Px := ⟨![0, 0, 0], false⟩

def bytes (o : Option (Outcome Image)) : Option (List UInt8 × List UInt8) :=
  match o with
  | some (.ok r) => some (r.grey, r.rgb)
  | _ => none

/-! ### C115 -/

/-- Two samples of which the second one is filled from the first one. -/
example : ∃ res, flood 2 1 2 [vis 10 20 30, hid] = some (.ok res) ∧
    Filled [vis 10 20 30, hid] res :=
  flood_fills (w := 2) (h := 1) rfl (by decide +kernel)

/-- The filling really changes something: four hidden samples in a row get the colour of the
visible one at their end, in one round, because every sample uses the one before it. -/
example : ((flood 5 1 5 [vis 10 20 30, hid, hid, hid, hid]).map fun o => match o with
    | .ok l => l.map fun p => (p.col 0, p.col 1, p.col 2, p.a)
    | _ => []) = some (List.replicate 5 (10, 20, 30, true)) := by decide +kernel

/-- Here the order is the other way round, and four rounds are needed. -/
example : (flood 5 1 3 [hid, hid, hid, hid, vis 10 20 30]).isSome = false := by decide +kernel
example : (flood 5 1 4 [hid, hid, hid, hid, vis 10 20 30]).isSome = true := by decide +kernel

/-! ### C116, C117 -/

def plain : ImgCfg := ⟨1, 0, false, fun d => d⟩
def extra2 : ImgCfg := ⟨2, 1, false, fun d => d⟩

/-- A lightmap with a hidden sample. -/
example : bytes (writeSingle plain 5 2 2 2 2
      [vis 10 20 30, hid, vis 50 60 70, vis 255 0 0] (List.replicate 4 (vis 0 0 1))) =
    some ([30, 105, 70, 255], [10, 20, 30, 105, 26, 33, 50, 60, 70, 255, 0, 0]) := by
  decide +kernel

example : ∃ r, writeSingle plain 5 2 2 2 2
      [vis 10 20 30, hid, vis 50 60 70, vis 255 0 0] (List.replicate 4 (vis 0 0 1)) = some (.ok r) ∧
    Written plain [vis 10 20 30, hid, vis 50 60 70, vis 255 0 0] 2 2 r := by
  refine lightmap_written (by decide) (by decide) (by decide) rfl rfl ?_ (by decide)
  intro p hp ch
  simp only [List.mem_cons, List.not_mem_nil, or_false] at hp
  rcases hp with rfl | rfl | rfl | rfl <;> fin_cases ch <;> norm_num [vis, hid]

/-- With `-extra` and `-soft`. -/
example : bytes (writeSingle extra2 17 2 1 2 1
      [vis 8 0 0, vis 8 0 0, vis 16 0 0, vis 16 0 0,
       vis 8 0 0, vis 8 0 0, vis 16 0 0, vis 16 0 0] (List.replicate 8 (vis 0 0 1))) =
    some ([9, 14], [9, 0, 0, 14, 0, 0]) := by
  decide +kernel

/-- The hypotheses of `lightmap_local`: the right sample of the lightmap sees only the red
channel from 8 to 16. -/
example : ∃ r v, writeSingle extra2 17 2 1 2 1
      [vis 8 0 0, vis 8 0 0, vis 16 0 0, vis 16 0 0,
       vis 8 0 0, vis 8 0 0, vis 16 0 0, vis 16 0 0] (List.replicate 8 (vis 0 0 1)) =
      some (.ok r) ∧ r.rgb[3]? = some v ∧ 8 ≤ v.toNat ∧ v.toNat ≤ 16 := by
  obtain ⟨r, v, h1, h2, h3, h4⟩ := lightmap_local (k := extra2) (n := 17) (aw := 2) (ah := 1)
    (ow := 2) (oh := 1) (col := [vis 8 0 0, vis 8 0 0, vis 16 0 0, vis 16 0 0,
       vis 8 0 0, vis 8 0 0, vis 16 0 0, vis 16 0 0]) (dir := List.replicate 8 (vis 0 0 1))
    (by decide) (by decide) (by decide) rfl rfl (by
      intro p hp ch
      simp only [List.mem_cons, List.not_mem_nil, or_false] at hp
      rcases hp with rfl | rfl | rfl | rfl | rfl | rfl | rfl | rfl <;> fin_cases ch <;>
        norm_num [vis]) (by decide) (s := 1) (t := 0) (by decide) (by decide) (ch := 0)
      (lo := 8) (hi := 16) (by
        intro a b ha hb _
        simp only [extra2] at ha hb
        have ha' : a = 0 ∨ a = 1 ∨ a = 2 ∨ a = 3 := by omega
        have hb' : b = 0 ∨ b = 1 := by omega
        rcases ha' with rfl | rfl | rfl | rfl <;> rcases hb' with rfl | rfl <;>
          simp [withSeams, extra2, vis] <;> norm_num)
  exact ⟨r, v, h1, h2, h3, h4⟩

/-! ### C118 -/

def std : Scale := ⟨0, 1, 1 / 2, none⟩
def limited : Scale := ⟨20, 1, 1 / 2, none⟩

theorem std_sane : std.Sane :=
  ⟨by norm_num [std], by norm_num [std], by norm_num [std], by norm_num [std], by simp [std]⟩
theorem limited_sane : limited.Sane :=
  ⟨by norm_num [limited], by norm_num [limited], by norm_num [limited], by norm_num [limited],
    by simp [limited]⟩

/-- Bright light is scaled to the limit, and the ratio of the channels is kept. -/
example : scaleClamp std ![2000, 1000, 0] 0 = 255 ∧ scaleClamp std ![2000, 1000, 0] 1 = 255 / 2 ∧
    scaleClamp std ![100, 50, 0] 0 = 50 ∧ scaleClamp limited ![80, 40, 0] 0 = 20 := by
  decide +kernel

/-- **C118 (finding).** `_lightcolorscale` has no upper bound.  With a value of 2 a red light
gets channels below -1, and their conversion to bytes is undefined. -/
theorem colorscale_undefined :
    ∃ (sc : Scale) (c : Col), 0 ≤ sc.maxlight ∧ 0 ≤ sc.colorscale ∧ 0 ≤ sc.range ∧
      sc.gamma = none ∧ (∀ i, 0 ≤ c i) ∧
      writeSingle plain 2 1 1 1 1 [⟨scaleClamp sc c, true⟩] [vis 0 0 1] = some .ub := by
  refine ⟨⟨0, 2, 1 / 2, none⟩, ![100, 0, 0], by norm_num, by norm_num, by norm_num, rfl, ?_, ?_⟩
  · intro i; fin_cases i <;> norm_num
  · unfold writeSingle
    decide +kernel

/-- **C118 (finding).** `_maxlight` has no lower bound.  A negative value turns all light into
negative light, and the conversion to bytes is undefined. -/
theorem maxlight_undefined :
    ∃ (sc : Scale) (c : Col), sc.colorscale = 1 ∧ 0 ≤ sc.range ∧
      sc.gamma = none ∧ (∀ i, 0 ≤ c i) ∧
      writeSingle plain 2 1 1 1 1 [⟨scaleClamp sc c, true⟩] [vis 0 0 1] = some .ub := by
  refine ⟨⟨-100, 1, 1 / 2, none⟩, ![100, 0, 0], rfl, by norm_num, rfl, ?_, ?_⟩
  · intro i; fin_cases i <;> norm_num
  · decide +kernel

/-! ### C119 -/

/-- Two samples, with the middle between them. -/
example : writeDecoupled 2 1 1 1 (fun _ => (1 / 2, 0)) [vis 10 0 0, vis 20 0 0] =
    .ok ⟨[0], [15, 0, 0], [0, 0, 0]⟩ := by decide +kernel

example : ∃ r, writeDecoupled 2 1 1 1 (fun _ => (1 / 2, 0)) [vis 10 0 0, vis 20 0 0] = .ok r ∧
    r.Sized 1 := by
  obtain ⟨r, h, hs, _⟩ := decoupled_written_partial (w := 2) (h := 1) (ow := 1) (oh := 1)
    (img := [vis 10 0 0, vis 20 0 0]) (pos := fun _ => (1 / 2, 0)) (by decide) (by decide) rfl (by
      intro p hp ch
      simp only [List.mem_cons, List.not_mem_nil, or_false] at hp
      rcases hp with rfl | rfl <;> fin_cases ch <;> norm_num [vis]) (by
      intro x y _ _; norm_num)
  exact ⟨r, h, hs⟩

/-- **C119 (finding).** A sample of the standard lightmap that lies before the first sample of
the decoupled one is extrapolated, because the position is truncated towards zero; the
conversion to a byte is then undefined. -/
theorem decoupled_undefined :
    ∃ (pos : Nat × Nat → ℚ × ℚ) (img : List Px),
      (∀ p ∈ img, ∀ ch, 0 ≤ p.col ch ∧ p.col ch ≤ 255) ∧ img.length = 2 ∧
      writeDecoupled 2 1 1 1 pos img = .ub := by
  refine ⟨fun _ => (-1 / 2, 0), [vis 0 0 0, vis 255 255 255], ?_, rfl, by decide +kernel⟩
  intro p hp ch
  simp only [List.mem_cons, List.not_mem_nil, or_false] at hp
  rcases hp with rfl | rfl <;> fin_cases ch <;> norm_num [vis]

/-! ### C120 -/

/-- The faces of `Ex.three` with the offsets and styles that a run of `light` gives them. -/
def again : List Face :=
  [ { (Ex.mkFace 2 2 true [Ex.lm 0 10 2 2 1]) with old := ⟨0, [0, 255, 255, 255]⟩ },
    { (Ex.mkFace 3 3 true [Ex.lm 0 5 3 3 2, Ex.lm 32 20 3 3 3]) with
      old := ⟨4, [32, 0, 255, 255]⟩ },
    ⟨none, true, ⟨-1, [255, 255, 255, 255]⟩⟩ ]

theorem again_sized : Sized again := by
  intro f hf s hs
  simp only [again, List.mem_cons, List.not_mem_nil, or_false] at hf
  rcases hf with rfl | rfl | rfl
  · exact Ex.mkFace_sized (eq := true) (l := [(0, 10, 1)]) s hs
  · exact Ex.mkFace_sized (eq := true) (l := [(0, 5, 2), (32, 20, 3)]) s hs
  · simp at hs

theorem again_inside : LitInside 12 again := by
  intro f hf s hs
  simp only [again, List.mem_cons, List.not_mem_nil, or_false] at hf
  rcases hf with rfl | rfl | rfl
  · simp only [Ex.mkFace, Option.some.injEq] at hs; subst hs
    exact Or.inr ⟨by decide, by decide⟩
  · simp only [Ex.mkFace, Option.some.injEq] at hs; subst hs
    exact Or.inr ⟨by decide, by decide⟩
  · simp at hs

theorem again_apart : LitApart again := by
  intro i j f f' s s' hij hf hf' hs hs' _ _
  have hi := (List.getElem?_eq_some_iff.1 hf).1
  have hj := (List.getElem?_eq_some_iff.1 hf').1
  simp only [again, List.length_cons, List.length_nil] at hi hj
  have hi' : i = 0 ∨ i = 1 ∨ i = 2 := by omega
  have hj' : j = 0 ∨ j = 1 ∨ j = 2 := by omega
  rcases hi' with rfl | rfl | rfl <;> rcases hj' with rfl | rfl | rfl <;>
    simp [again] at hij hf hf' <;> subst hf <;> subst hf' <;>
    simp [Ex.mkFace] at hs hs' <;> subst hs <;> subst hs' <;> decide

/-- Every execution puts the light of style 32 of the second face at byte 12 of the .lit
data. -/
example : ∃ x, LitRun Ex.quake 12 again x ∧ ∃ m, x = .ok m ∧ m .lit 12 = 3 ∧ m .lit 21 = 2 := by
  obtain ⟨x, hx⟩ := litRun_exists Ex.quake 12 again
  obtain ⟨m, rfl⟩ := litonly_succeeds hx (by decide) rfl again_sized again_inside (by decide)
  refine ⟨_, hx, m, rfl, ?_, ?_⟩
  · have := (litonly_stored hx again_sized again_apart (i := 1) rfl rfl (v := 4) rfl (k := 0)
      (st := 32) (by decide)).1 rfl 0 (by decide)
    simpa using this.trans (by decide +kernel : _ = (3 : UInt8))
  · have := (litonly_stored hx again_sized again_apart (i := 1) rfl rfl (v := 4) rfl (k := 1)
      (st := 0) (by decide)).1 rfl 0 (by decide)
    simpa using this.trans (by decide +kernel : _ = (2 : UInt8))

/-- The hypotheses of `litonly_after_light` are met. -/
example : ∃ r x, Run Ex.quake Ex.three (.ok r) ∧
    LitRun Ex.quake r.total (relit Ex.three r.outs) x ∧ ∃ m, x = .ok m := by
  obtain ⟨y, hy⟩ := run_exists Ex.quake Ex.three
  obtain ⟨r, rfl⟩ := save_succeeds hy (by decide +kernel) Ex.three_sized (Ex.three_tame _ rfl)
    (by decide +kernel)
  have ht : r.total = 12 := by rw [size_fixed hy]; decide +kernel
  obtain ⟨x, hx⟩ := litRun_exists Ex.quake r.total (relit Ex.three r.outs)
  obtain ⟨m, hm, _⟩ := litonly_after_light hy Ex.three_sized (Ex.three_tame _ rfl) rfl rfl rfl rfl
    rfl (by rw [ht]; decide) (by rw [ht]; decide) (by
      intro f hf s hs
      simp only [Ex.three, List.mem_cons, List.not_mem_nil, or_false] at hf
      rcases hf with rfl | rfl | rfl <;> simp [Ex.mkFace] at hs <;> subst hs <;>
        simp [Ex.lm]) hx
  exact ⟨r, x, hy, hx, m, hm⟩

/-- **C120 (finding).** A lightmap that is larger than the one that the BSP file was made with
(another scale of lightmaps, for example) is written beyond the end of the data. -/
theorem litonly_undefined :
    ∃ (c : Cfg) (total : Nat) (fs : List Face), Sized fs ∧ c.lit = true ∧
      LitRun c total fs .ub := by
  refine ⟨Ex.quake, 4, [{ (Ex.mkFace 8 8 true [Ex.lm 0 10 8 8 1]) with
    old := ⟨0, [0, 255, 255, 255]⟩ }], ?_, rfl, .undef (by decide) rfl (by decide +kernel)⟩
  intro f hf s hs
  simp only [List.mem_cons, List.not_mem_nil, or_false] at hf
  subst hf
  exact Ex.mkFace_sized (eq := true) (l := [(0, 10, 1)]) s hs

end Verif.Light.ImgEx
