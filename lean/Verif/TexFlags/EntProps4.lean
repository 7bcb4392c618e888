import Verif.TexFlags.EntProps3
import Verif.Cmdlib.Props

/-!
C138, continued: the flags that come from the name of the texture, and the remaining keys.
-/

namespace Verif.TexFlags

open Verif
open Verif.EntData (Str Dict find)
open Verif.Styles (lit)
open Verif.Cmdlib.Spec (SameText)

/-- Textures that are not drawn. -/
def skipNames : List String := ["skip", "*waterskip", "*slimeskip", "*lavaskip", "bevel", "null", "__TB_empty"]

theorem same_of {n : Str} (hn : (0 : UInt8) ∉ n) (s : String) (hs : (0 : UInt8) ∉ lit s) :
    Cmdlib.iequalC n (lit s) = true ↔ SameText n (lit s) := (Cmdlib.container_equal_hash_partial n (lit s) hn hs).1

/-- C138: which flags a face has by the name of its texture, upper and lower case being the same. In Quake 2 the native
flags are kept, and those for nodraw (128) and hint (256) count as well. In other games, faces whose texture begins with
`*`, unless water is to be lit, and those whose texture begins with `sky`, without `-splitsky`, are special. -/
theorem names (A : Arith) (o : EntOpts) (f : Face) (world e : Dict) (g : Flags) (hn : (0 : UInt8) ∉ f.texname)
    (h : entityFlags A o world f e = .ok g) :
    (g.isNodraw = true ↔ (o.noskip = false ∧ ∃ s ∈ skipNames, SameText f.texname (lit s)) ∨
      (o.quake2 = true ∧ f.native / 128 % 2 = 1)) ∧
    (g.isHint = true ↔ SameText f.texname (lit "hint") ∨ SameText f.texname (lit "hintskip") ∨
      (o.quake2 = true ∧ f.native / 256 % 2 = 1)) ∧
    (g.noExpand = true ↔ SameText f.texname (lit "bevel")) ∧ g.noPhong = false ∧
    (o.quake2 = true → g.native = f.native) ∧
    (o.quake2 = false → ∃ water : Bool, (g.native = 1 ∨ g.native = 0) ∧
        (g.native = 1 ↔ (f.texname.head? = some 42 ∧ water = false) ∨
          (SameText (f.texname.take 3) (lit "sky") ∧ o.splitsky = false)) ∧
        (∀ v, find e (lit "_litwater") = some v → ∃ n, IsInt e "_litwater" n ∧ (water = true ↔ 0 < n)) ∧
        (∀ v, find e (lit "_litwater") = none → find e (lit "_splitturb") = some v →
          ∃ n, IsInt e "_splitturb" n ∧ (water = true ↔ 0 < n)) ∧
        (find e (lit "_litwater") = none → find e (lit "_splitturb") = none → water = o.splitturb)) := by
  obtain ⟨a1, -, -, -, -, -, -, -, -, -, -, -, -, -, a15, a16, -, a18, a19, -⟩ := flags_members h
  refine ⟨?_, ?_, ?_, a18, ?_, ?_⟩
  · rw [a15]
    unfold nodrawOf isSkipName bit
    have hs : ∀ s ∈ skipNames, (0 : UInt8) ∉ lit s := by decide +kernel
    have hany : ([lit "skip", lit "*waterskip", lit "*slimeskip", lit "*lavaskip", lit "bevel", lit "null",
        lit "__TB_empty"].any fun s => Cmdlib.iequalC f.texname s) = true ↔
        ∃ s ∈ skipNames, SameText f.texname (lit s) := by
      have : [lit "skip", lit "*waterskip", lit "*slimeskip", lit "*lavaskip", lit "bevel", lit "null",
        lit "__TB_empty"] = skipNames.map lit := rfl
      rw [this, List.any_map, List.any_eq_true]
      constructor <;>
        · rintro ⟨s, hm, hv⟩
          exact ⟨s, hm, by simpa [same_of hn s (hs s hm)] using hv⟩
    rw [Bool.or_eq_true, Bool.and_eq_true, Bool.and_eq_true, hany, decide_eq_true_eq, or_comm]
    simp
  · rw [a16]
    unfold hintOf isHintName bit
    rw [Bool.or_eq_true, Bool.or_eq_true, Bool.and_eq_true, same_of hn _ (by decide +kernel),
      same_of hn _ (by decide +kernel), decide_eq_true_eq, or_comm, or_assoc]
    simp
  · rw [a19]
    exact same_of hn _ (by decide +kernel)
  · intro hq
    unfold nativeOf at a1
    rw [if_pos hq] at a1
    exact (Outcome.ok.inj a1).symm
  · intro hq
    unfold nativeOf at a1
    rw [if_neg (by simp [hq]), Outcome.bind_eq_ok] at a1
    obtain ⟨w, hw, ha⟩ := a1
    rw [Outcome.pure_eq, Outcome.ok.injEq] at ha
    have hn3 : (0 : UInt8) ∉ f.texname.take 3 := fun hc => hn (List.mem_of_mem_take hc)
    refine ⟨w, ?_, ?_, ?_, ?_, ?_⟩
    · rw [← ha]
      split <;> simp
    · rw [← ha]
      unfold isSpecialName
      have : ((f.texname.head? == some 42 && !w) ||
          (Cmdlib.iequalC (f.texname.take 3) (lit "sky") && !o.splitsky)) = true ↔
          (f.texname.head? = some 42 ∧ w = false) ∨ (SameText (f.texname.take 3) (lit "sky") ∧ o.splitsky = false) := by
        rw [Bool.or_eq_true, Bool.and_eq_true, Bool.and_eq_true, same_of hn3 _ (by decide +kernel)]
        simp
      by_cases hc : ((f.texname.head? == some 42 && !w) ||
          (Cmdlib.iequalC (f.texname.take 3) (lit "sky") && !o.splitsky)) = true
      · rw [if_pos hc]
        exact ⟨fun _ => this.mp hc, fun _ => rfl⟩
      · rw [if_neg hc]
        exact ⟨fun hx => absurd hx (by decide), fun hx => absurd (this.mpr hx) hc⟩
    · intro v hv
      unfold litwater at hw
      rw [if_pos (by simp [EntData.has, hv]), Outcome.bind_eq_ok] at hw
      obtain ⟨n, hn, hx⟩ := hw
      rw [Outcome.pure_eq, Outcome.ok.injEq] at hx
      exact ⟨n, hn, by rw [← hx]; simp⟩
    · intro v h0 hv
      unfold litwater at hw
      rw [if_neg (by simp [EntData.has, h0]), if_pos (by simp [EntData.has, hv]), Outcome.bind_eq_ok] at hw
      obtain ⟨n, hn, hx⟩ := hw
      rw [Outcome.pure_eq, Outcome.ok.injEq] at hx
      exact ⟨n, hn, by rw [← hx]; simp⟩
    · intro h0 h1
      unfold litwater at hw
      rw [if_neg (by simp [EntData.has, h0]), if_neg (by simp [EntData.has, h1]), Outcome.pure_eq,
        Outcome.ok.injEq] at hw
      exact hw.symm

/-- The three numbers of a text. -/
def vectorOf (A : Arith) (e : Dict) (k : String) : Vec := (A.scan ((find e (lit k)).getD [])).2

theorem get_eq_getD (e : Dict) (k : Str) : EntData.get e k = (find e k).getD [] := by
  unfold EntData.get
  cases find e k <;> rfl

/-- C138: the flags that are set if their key is there, and the values they then have. -/
theorem optional (A : Arith) (o : EntOpts) (f : Face) (world e : Dict) (g : Flags)
    (h : entityFlags A o world f e = .ok g) :
    g.surflightTargetname = find e (lit "_surflight_targetname") ∧
    (∀ n, IsInt e "_surflight_rescale" n →
      g.surflightRescale = (find e (lit "_surflight_rescale")).map fun _ => decide (n = 1)) ∧
    (∀ n, IsInt e "_light_twosided" n →
      g.lightTwosided = (find e (lit "_light_twosided")).map fun _ => decide (n ≠ 0)) ∧
    (∀ n, IsInt e "_object_channel_mask" n →
      g.objectChannelMask = (find e (lit "_object_channel_mask")).map fun _ => n) ∧
    g.worldUnitsPerLuxel =
      (find e (lit "_world_units_per_luxel")).map (fun v => A.narrow (numberOf A (some v))) ∧
    g.lightAlpha = (find e (lit "_light_alpha")).map (fun v => A.narrow (clamp A (numberOf A (some v)) 0 1)) ∧
    (g.surflightMinlightScale =
      (effective world e "_surflight_minlight_scale").map fun v => A.narrow (numberOf A (some v))) ∧
    g.minlightColor = A.colour (if A.nearZero (vectorOf A e "_mincolor") = true then vectorOf A e "_minlight_color"
      else vectorOf A e "_mincolor") ∧
    g.phongAngleConcave = A.narrow (clamp A (numberOf A (find e (lit "_phong_angle_concave"))) 0 360) ∧
    (A.lt (A.nat 0) (numberOf A (find e (lit "_maxlight"))) = true →
      g.maxlight = A.narrow (clamp A (numberOf A (find e (lit "_maxlight"))) 0 510)) ∧
    (∀ v, find e (lit "_lightcolorscale") = some v → A.eq (numberOf A (some v)) (A.nat 1) = false →
      g.lightcolorscale = A.narrow (clamp A (numberOf A (some v)) 0 1)) ∧
    (∀ v, find e (lit "_minlight") = some v → A.lt (A.nat 0) (numberOf A (some v)) = true →
      g.minlight = some (A.narrow (numberOf A (some v)))) ∧
    (find e (lit "_minlight") = none → g.minlight = none) := by
  obtain ⟨-, -, -, -, -, a6, -, -, -, -, -, -, a13, a14, -, -, -, -, -, a20, a21, a22, a23, a24, a25, a26, a27, a28⟩ :=
    flags_members h
  refine ⟨?_, ?_, ?_, ?_, ?_, ?_, ?_, ?_, ?_, ?_, ?_, ?_, ?_⟩
  · rw [a20]
    unfold targetnameOf EntData.has EntData.get
    cases find e (lit "_surflight_targetname") <;> simp
  · intro n hn
    unfold rescaleOf EntData.has isNumber at a6
    cases hf : find e (lit "_surflight_rescale") with
    | none =>
      rw [hf] at a6
      exact (Outcome.ok.inj a6).symm
    | some v =>
      rw [hf, hn] at a6
      exact (Outcome.ok.inj a6).symm
  · intro n hn
    unfold twosidedOf EntData.has at a14
    cases hf : find e (lit "_light_twosided") with
    | none =>
      rw [hf] at a14
      exact (Outcome.ok.inj a14).symm
    | some v =>
      rw [hf, hn] at a14
      exact (Outcome.ok.inj a14).symm
  · intro n hn
    unfold channelOf EntData.has at a13
    cases hf : find e (lit "_object_channel_mask") with
    | none =>
      rw [hf] at a13
      exact (Outcome.ok.inj a13).symm
    | some v =>
      rw [hf, hn] at a13
      exact (Outcome.ok.inj a13).symm
  · rw [a28]
    unfold luxelOf EntData.has
    rw [getFloat_eq]
    cases find e (lit "_world_units_per_luxel") <;> simp
  · rw [a25]
    unfold alphaOf EntData.has
    rw [getFloat_eq]
    cases find e (lit "_light_alpha") <;> simp
  · rw [a21]
    unfold minlightScaleOf EntData.has effective
    simp only [getFloat_eq]
    cases find e (lit "_surflight_minlight_scale") <;> cases find world (lit "_surflight_minlight_scale") <;> simp
  · rw [a24]
    unfold minlightColorOf getVector vectorOf
    simp only [get_eq_getD]
  · rw [a22]
    unfold concaveOf
    rw [getFloat_eq]
  · intro hp
    rw [a26]
    unfold maxlightOf
    simp only [getFloat_eq, hp, if_true]
  · intro v hv hne
    rw [a27]
    unfold colorscaleOf EntData.has
    simp only [getFloat_eq, hv, hne, Option.isSome_some, if_true, Bool.not_false]
  · intro v hv hp
    rw [a23]
    unfold minlightOf EntData.has
    simp only [getFloat_eq, hv, hp, Option.isSome_some, if_true]
  · intro hv
    rw [a23]
    unfold minlightOf EntData.has
    simp [hv]

/-- `names` and `optional` apply to the door of EntProps3. -/
example : ∃ g, entityFlags whole ⟨false, false, true, false⟩ [] ⟨lit "Skip", 0, false⟩ door = .ok g ∧ g.isNodraw = true :=
  ⟨{ isNodraw := true, noShadow := true, phongAngle := 0x42b20000#32 }, by decide +kernel, rfl⟩

end Verif.TexFlags
