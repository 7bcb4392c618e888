import Verif.TexFlags.EntProps2
import Verif.TexFlags.Props
import Mathlib.Tactic.IntervalCases

/-!
C138 and C139, continued: numbers, and when the flags are defined.
-/

namespace Verif.TexFlags

open Verif
open Verif.EntData (Str Dict find)
open Verif.Styles (lit)

/-- A number between two bounds, NaN included, as a `float`. -/
def InRange (A : Arith) (lo hi : Nat) (x : F32) : Prop :=
  ∃ d, x = A.narrow d ∧ A.lt d (A.nat lo) = false ∧ A.lt (A.nat hi) d = false

theorem clamp_inRange {A : Arith} (hA : A.Lawful) (v : A.D) {lo hi : Nat} (h : lo ≤ hi) :
    InRange A lo hi (A.narrow (clamp A v lo hi)) := by
  refine ⟨_, rfl, ?_⟩
  unfold clamp
  by_cases h1 : A.lt v (A.nat lo) = true
  · rw [if_pos h1, hA.lt, hA.lt]
    simp; omega
  · rw [if_neg h1]
    by_cases h2 : A.lt (A.nat hi) v = true
    · rw [if_pos h2, hA.lt, hA.lt]
      simp; omega
    · rw [if_neg h2]
      exact ⟨by simpa using h1, by simpa using h2⟩

theorem zero_inRange {A : Arith} (hA : A.Lawful) (hi : Nat) : InRange A 0 hi 0#32 :=
  ⟨A.nat 0, hA.narrow.symm, by rw [hA.lt]; simp, by rw [hA.lt]; simp⟩

/-- The value of a key on the entity, or else on worldspawn. -/
def effective (world e : Dict) (k : String) : Option Str := (find e (lit k)).or (find world (lit k))

/-- The number a text stands for. -/
def numberOf (A : Arith) : Option Str → A.D
  | some (c :: s) => A.atof (c :: s)
  | _ => A.nat 0

theorem getFloat_eq (A : Arith) (e : Dict) (k : String) : getFloat A e (lit k) = numberOf A (find e (lit k)) := by
  unfold getFloat EntData.get
  cases find e (lit k) with
  | none => simp [numberOf]
  | some v => cases v <;> simp [numberOf]

/-- C138: the angle for phong shading is that of `_phong_angle`, between 0 and 360; without one, or if it is 0, phong
shading is off if `_phong` is 0 and else has an angle of 89 degrees. Both keys fall back to worldspawn. -/
theorem phong_angle (A : Arith) (hA : A.Lawful) (o : EntOpts) (f : Face) (world e : Dict) (g : Flags)
    (h : entityFlags A o world f e = .ok g) :
    (A.eq (numberOf A (effective world e "_phong_angle")) (A.nat 0) = false →
      g.phongAngle = A.narrow (clamp A (numberOf A (effective world e "_phong_angle")) 0 360)) ∧
    (A.eq (numberOf A (effective world e "_phong_angle")) (A.nat 0) = true → ∃ n,
      (∀ v, effective world e "_phong" = some v → IsInt [(lit "_phong", v)] "_phong" n) ∧
      (effective world e "_phong" = none → n = 0) ∧
      (n ≠ 0 → A.eq (A.nat 89) (A.nat 0) = false → g.phongAngle = A.narrow (A.nat 89)) ∧
      (n = 0 → g.phongAngle = 0#32)) := by
  obtain ⟨-, -, -, -, -, -, -, -, -, a, -⟩ := flags_members h
  unfold phongOf at a
  simp only [Outcome.bind_eq_ok] at a
  obtain ⟨p, hp, q, hq, a⟩ := a
  rw [Outcome.pure_eq, Outcome.ok.injEq] at a
  have hangle : (if (!EntData.has e (lit "_phong_angle") && EntData.has world (lit "_phong_angle")) = true
      then getFloat A world (lit "_phong_angle") else getFloat A e (lit "_phong_angle")) =
      numberOf A (effective world e "_phong_angle") := by
    rw [getFloat_eq, getFloat_eq]
    unfold effective EntData.has
    cases find e (lit "_phong_angle") <;> cases find world (lit "_phong_angle") <;> simp
  rw [hangle] at a
  constructor
  · intro hne
    rw [hne] at a
    simp only [Bool.and_false, Bool.false_eq_true, if_false, hne, Bool.not_false, if_true] at a
    exact a.symm
  · intro heq
    refine ⟨q, ?_, ?_, ?_, ?_⟩
    · intro v hv
      unfold IsInt
      unfold effective at hv
      unfold EntData.has at hq
      have hs : Styles.getInt [(lit "_phong", v)] (lit "_phong") =
          match Settings.scanNumber v with
          | none => .ok 0
          | some (neg, n) =>
            let i : Int := if neg then -(n : Int) else n
            if -2 ^ 31 ≤ i ∧ i < 2 ^ 31 then .ok i else .ub := by
        have : find [(lit "_phong", v)] (lit "_phong") = some v := by simp [find]
        unfold Styles.getInt
        simp only [EntData.get, this]
        rfl
      rw [hs]
      cases he : find e (lit "_phong") with
      | some w =>
        rw [he] at hv hq
        simp only [Option.some_or, Option.some.injEq] at hv
        subst hv
        simp only [Option.isSome_some, Bool.not_true, Bool.false_and, Bool.false_eq_true, if_false, Outcome.pure_eq,
          Outcome.ok.injEq] at hq
        subst hq
        unfold Styles.getInt at hp
        simp only [EntData.get, he] at hp
        exact hp
      | none =>
        rw [he] at hv hq
        simp only [Option.none_or] at hv
        simp only [hv, Option.isSome_none, Option.isSome_some, Bool.not_false, Bool.true_and, if_true] at hq
        unfold Styles.getInt at hq
        simp only [EntData.get, hv] at hq
        exact hq
    · intro hn
      unfold effective at hn
      rw [Option.or_eq_none_iff] at hn
      simp only [EntData.has, hn.1, hn.2, Option.isSome_none, Bool.not_false, Bool.and_false, Bool.false_eq_true,
        if_false, Outcome.pure_eq, Outcome.ok.injEq] at hq
      unfold Styles.getInt at hp
      simp only [EntData.get, hn.1] at hp
      subst hq
      exact (Outcome.ok.inj hp).symm
    · intro hn h89
      rw [heq] at a
      have hc : clamp A (A.nat 89) 0 360 = A.nat 89 := by simp [clamp, hA.lt]
      simp only [hn, ne_eq, not_false_eq_true, decide_true, Bool.and_true, if_true, h89, Bool.not_false, hc] at a
      exact a.symm
    · intro hn
      simp only [hn, ne_eq, not_true_eq_false, decide_false, Bool.false_and, Bool.false_eq_true, if_false, heq,
        Bool.not_true] at a
      exact a.symm

/-- C138: numbers are brought into their ranges. -/
theorem ranges (A : Arith) (hA : A.Lawful) (hone : A.narrow (A.nat 1) = F32.one) (o : EntOpts) (f : Face)
    (world e : Dict) (g : Flags) (h : entityFlags A o world f e = .ok g) :
    InRange A 0 360 g.phongAngle ∧ InRange A 0 360 g.phongAngleConcave ∧ InRange A 0 510 g.maxlight ∧
    InRange A 0 1 g.lightcolorscale ∧ (∀ x, g.lightAlpha = some x → InRange A 0 1 x) ∧
    (∀ x, g.minlight = some x → ∃ d, x = A.narrow d ∧ (d = A.nat 0 ∨ A.lt (A.nat 0) d = true)) := by
  obtain ⟨-, -, -, -, -, -, -, -, -, a10, -, -, -, -, -, -, -, -, -, -, -, a22, a23, -, a25, a26, a27, -⟩ :=
    flags_members h
  refine ⟨?_, ?_, ?_, ?_, ?_, ?_⟩
  · unfold phongOf at a10
    simp only [Outcome.bind_eq_ok] at a10
    obtain ⟨p, hp, q, hq, a⟩ := a10
    rw [Outcome.pure_eq, Outcome.ok.injEq] at a
    rw [← a]
    generalize (if (decide (q ≠ 0) && A.eq _ _) = true then A.nat 89 else _) = d
    by_cases hd : (!A.eq d (A.nat 0)) = true
    · rw [if_pos hd]
      exact clamp_inRange hA _ (by omega)
    · rw [if_neg hd]
      exact zero_inRange hA _
  · rw [a22]
    exact clamp_inRange hA _ (by omega)
  · rw [a26]
    unfold maxlightOf
    simp only
    by_cases hd : A.lt (A.nat 0) (getFloat A e (lit "_maxlight")) = true
    · rw [if_pos hd]
      exact clamp_inRange hA _ (by omega)
    · rw [if_neg hd]
      exact zero_inRange hA _
  · have h1 : InRange A 0 1 F32.one := ⟨A.nat 1, hone.symm, by rw [hA.lt]; simp, by rw [hA.lt]; simp⟩
    rw [a27]
    unfold colorscaleOf
    simp only
    by_cases hh : EntData.has e (lit "_lightcolorscale") = true
    · rw [if_pos hh]
      by_cases hd : (!A.eq (getFloat A e (lit "_lightcolorscale")) (A.nat 1)) = true
      · rw [if_pos hd]
        exact clamp_inRange hA _ (by omega)
      · rw [if_neg hd]
        exact h1
    · rw [if_neg hh]
      exact h1
  · intro x hx
    rw [a25] at hx
    unfold alphaOf at hx
    by_cases hh : EntData.has e (lit "_light_alpha") = true
    · rw [if_pos hh] at hx
      cases hx
      exact clamp_inRange hA _ (by omega)
    · rw [if_neg hh] at hx; cases hx
  · intro x hx
    rw [a23] at hx
    unfold minlightOf at hx
    by_cases hh : EntData.has e (lit "_minlight") = true
    · rw [if_pos hh] at hx
      cases hx
      refine ⟨_, rfl, ?_⟩
      by_cases hd : A.lt (A.nat 0) (getFloat A e (lit "_minlight")) = true
      · rw [if_pos hd]; exact Or.inr hd
      · rw [if_neg hd]; exact Or.inl rfl
    · rw [if_neg hh] at hx; cases hx

/-- A component a `uint8_t` can hold after its fraction is dropped. -/
def Fits (x : F32) : Prop :=
  x.finite = true ∧ (x.neg = true → x.mag < 2 ^ 149) ∧ (x.neg = false → x.mag < 256 * 2 ^ 149)

theorem toByte_ok {x : F32} : (∃ b, x.toByte = .ok b) ↔ Fits x := by
  unfold F32.toByte Fits
  cases hf : x.finite
  · simp
  · cases hn : x.neg
    · simp only [Bool.not_true, Bool.false_eq_true, if_false, true_and, false_implies, true_implies]
      rw [← Nat.div_lt_iff_lt_mul (by positivity)]
      constructor
      · rintro ⟨b, hb⟩
        by_contra hc
        rw [if_neg hc] at hb
        cases hb
      · intro hb
        rw [if_pos hb]
        exact ⟨_, rfl⟩
    · simp only [Bool.not_true, Bool.false_eq_true, if_false, if_true, true_and, reduceCtorEq, false_implies,
        true_implies, and_true]
      constructor
      · rintro ⟨b, hb⟩
        by_contra hc
        rw [if_neg hc] at hb
        cases hb
      · intro hb
        rw [if_pos hb]
        exact ⟨_, rfl⟩

theorem toByte_ub {x : F32} : x.toByte = .ub ↔ ¬ Fits x := by
  rw [← toByte_ok]
  unfold F32.toByte
  split
  · simp
  · split
    · split <;> simp
    · split <;> simp

/-- Whole-number keys that are read. -/
def intKeys : List String :=
  ["_dirt", "_bounce", "_minlight", "_lightignore", "_surflight_rescale", "_surflight_style", "_shadow", "_phong",
   "_phong_group", "_surflight_group", "_object_channel_mask", "_light_twosided", "_litwater", "_splitturb"]

/-- C139, in part: the flags are defined if the whole numbers are of type `int` and the components of `_surflight_color`,
after multiplication by 255 if none is greater than 1, fit a byte. -/
theorem flags_defined_partial (A : Arith) (o : EntOpts) (f : Face) (world e : Dict)
    (hi : ∀ k ∈ intKeys, ∃ n, IsInt e k n) (hw : ∃ n, IsInt world "_phong" n)
    (hc : ∀ v, find e (lit "_surflight_color") = some v → ∀ r g b, A.scan v = (3, r, g, b) →
      if r.leOne = true ∧ g.leOne = true ∧ b.leOne = true then
        Fits (A.mul255 r) ∧ Fits (A.mul255 g) ∧ Fits (A.mul255 b)
      else Fits r ∧ Fits g ∧ Fits b) :
    ∃ g, entityFlags A o world f e = .ok g := by
  have I : ∀ k ∈ intKeys, ∃ n, Styles.getInt e (lit k) = .ok n := hi
  have N : ∀ k ∈ intKeys, ∀ m, ∃ b, isNumber e (lit k) m = .ok b := by
    intro k hk m
    obtain ⟨n, hn⟩ := I k hk
    exact ⟨_, by unfold isNumber; rw [hn]; rfl⟩
  have e1 : ∃ x, nativeOf o f e = .ok x := by
    obtain ⟨n, hn⟩ := I "_litwater" (by decide)
    obtain ⟨m, hm⟩ := I "_splitturb" (by decide)
    unfold nativeOf litwater
    rw [hn, hm]
    split
    · exact ⟨_, rfl⟩
    · split
      · exact ⟨_, rfl⟩
      · split <;> exact ⟨_, rfl⟩
  have e4 : ∃ x, noMinlightOf f e = .ok x := by
    obtain ⟨n, hn⟩ := N "_minlight" (by decide) (-1)
    unfold noMinlightOf
    rw [hn]
    exact ⟨_, rfl⟩
  have e6 : ∃ x, rescaleOf e = .ok x := by
    obtain ⟨n, hn⟩ := N "_surflight_rescale" (by decide) 1
    unfold rescaleOf
    rw [hn]
    split <;> exact ⟨_, rfl⟩
  have e7 : ∃ x, surflightColorOf A e = .ok x := by
    have bytes : ∀ r g b, Fits r → Fits g → Fits b → ∃ c, toBytes (r, g, b) = .ok c := by
      intro r g b hr hg hb
      obtain ⟨r', hr⟩ := toByte_ok.mpr hr
      obtain ⟨g', hg⟩ := toByte_ok.mpr hg
      obtain ⟨b', hb⟩ := toByte_ok.mpr hb
      unfold toBytes
      simp only [hr, hg, hb, Outcome.ok_bind]
      exact ⟨_, rfl⟩
    unfold surflightColorOf
    simp only
    split
    · rename_i hcond
      rw [Bool.and_eq_true] at hcond
      obtain ⟨h1, h2⟩ := hcond
      cases hf : find e (lit "_surflight_color") with
      | none => simp [EntData.has, hf] at h1
      | some v =>
        have hv : getVector A e (lit "_surflight_color") = A.scan v := by simp [getVector, EntData.get, hf]
        rw [hv] at h2 ⊢
        rcases hsc : A.scan v with ⟨n, r, g, b⟩
        rw [hsc] at h2
        have hn : n = 3 := by simpa using h2
        subst hn
        have := hc v hf r g b hsc
        simp only
        split
        · rename_i hle
          rw [Bool.and_eq_true, Bool.and_eq_true] at hle
          rw [if_pos ⟨hle.1.1, hle.1.2, hle.2⟩] at this
          obtain ⟨c, hcc⟩ := bytes _ _ _ this.1 this.2.1 this.2.2
          rw [hcc]
          exact ⟨_, rfl⟩
        · rename_i hle
          rw [Bool.and_eq_true, Bool.and_eq_true] at hle
          rw [if_neg (fun hx => hle ⟨⟨hx.1, hx.2.1⟩, hx.2.2⟩)] at this
          obtain ⟨c, hcc⟩ := bytes _ _ _ this.1 this.2.1 this.2.2
          rw [hcc]
          exact ⟨_, rfl⟩
    · exact ⟨_, rfl⟩
  have e8 : ∃ x, styleOf e = .ok x := by
    obtain ⟨n, hn⟩ := I "_surflight_style" (by decide)
    unfold styleOf
    rw [hn]
    split <;> exact ⟨_, rfl⟩
  have e9 : ∃ x, noShadowOf o f e = .ok x := by
    obtain ⟨n, hn⟩ := I "_shadow" (by decide)
    unfold noShadowOf
    rw [hn]
    exact ⟨_, rfl⟩
  have e10 : ∃ x, phongOf A world e = .ok x := by
    obtain ⟨n, hn⟩ := I "_phong" (by decide)
    obtain ⟨m, hm⟩ : ∃ m, Styles.getInt world (lit "_phong") = .ok m := hw
    unfold phongOf
    rw [hn, hm]
    simp only [Outcome.ok_bind]
    split <;> exact ⟨_, rfl⟩
  have e12 : ∃ x, groupOf e = .ok x := by
    obtain ⟨n, hn⟩ := I "_surflight_group" (by decide)
    unfold groupOf
    rw [hn]
    split <;> exact ⟨_, rfl⟩
  have e13 : ∃ x, channelOf e = .ok x := by
    obtain ⟨n, hn⟩ := I "_object_channel_mask" (by decide)
    unfold channelOf
    rw [hn]
    split <;> exact ⟨_, rfl⟩
  have e14 : ∃ x, twosidedOf e = .ok x := by
    obtain ⟨n, hn⟩ := I "_light_twosided" (by decide)
    unfold twosidedOf
    rw [hn]
    split <;> exact ⟨_, rfl⟩
  obtain ⟨x1, e1⟩ := e1
  obtain ⟨x2, e2⟩ := N "_dirt" (by decide) (-1)
  obtain ⟨x3, e3⟩ := N "_bounce" (by decide) (-1)
  obtain ⟨x4, e4⟩ := e4
  obtain ⟨x5, e5⟩ := N "_lightignore" (by decide) 1
  obtain ⟨x6, e6⟩ := e6
  obtain ⟨x7, e7⟩ := e7
  obtain ⟨x8, e8⟩ := e8
  obtain ⟨x9, e9⟩ := e9
  obtain ⟨x10, e10⟩ := e10
  obtain ⟨x11, e11⟩ := I "_phong_group" (by decide)
  obtain ⟨x12, e12⟩ := e12
  obtain ⟨x13, e13⟩ := e13
  obtain ⟨x14, e14⟩ := e14
  unfold entityFlags
  simp only [e1, e2, e3, e4, e5, e6, e7, e8, e9, e10, e11, e12, e13, e14, Outcome.ok_bind, Outcome.pure_eq]
  exact ⟨_, rfl⟩

/-- C139 is false of the code: a component of `_surflight_color` beyond 255, such as in "300 0 0", or a negative one, is
converted to `uint8_t` without a check, which is undefined. -/
theorem surflight_color_undefined (A : Arith) (o : EntOpts) (f : Face) (world e : Dict) (v : Str) (r g b : F32)
    (hv : find e (lit "_surflight_color") = some v) (hs : A.scan v = (3, r, g, b))
    (hr : r.leOne = false) (hbad : ¬ Fits r) : ¬ ∃ fl, entityFlags A o world f e = .ok fl := by
  rintro ⟨fl, h⟩
  obtain ⟨-, -, -, -, -, -, a7, -⟩ := flags_members h
  unfold surflightColorOf at a7
  have h1 : getVector A e (lit "_surflight_color") = (3, r, g, b) := by simp [getVector, EntData.get, hv, hs]
  have h2 : EntData.has e (lit "_surflight_color") = true := by simp [EntData.has, hv]
  simp only [h1, h2, hr, beq_self_eq_true, Bool.and_self, if_true, Bool.false_and, Bool.false_eq_true, if_false, toBytes,
    toByte_ub.mpr hbad, Outcome.ub_bind] at a7
  cases a7

/-- Whole numbers for `double`, to show that the theorems apply. -/
def whole : Arith where
  D := Int
  atof s := match Settings.scanNumber s with
    | none => 0
    | some (neg, n) => if neg then -(n : Int) else n
  lt a b := decide (a < b)
  eq a b := decide (a = b)
  nat n := n
  narrow d := if d = 0 then 0#32 else if d = 1 then F32.one else if d = 45 then 0x42340000#32 else 0x42b20000#32
  scan _ := (0, 0#32, 0#32, 0#32)
  mul255 x := x
  nearZero _ := true
  colour _ := (0, 0, 0)

theorem whole_lawful : whole.Lawful := by
  refine ⟨by decide +kernel, by decide +kernel, ?_, rfl, rfl⟩
  intro m n
  simp [whole]

/-- A `func_door` with `_phong "1"`, `_shadow "-1"` and `_minlight_exclude2 "Glass"` in a map whose worldspawn has
`_phong_angle "45"`: its face with the texture `glass` gets no minlight, no shadow and an angle of 45 degrees. -/
def door : Dict := [(lit "classname", lit "func_door"), (lit "_phong", lit "1"), (lit "_shadow", lit "-1"),
  (lit "_minlight_exclude2", lit "Glass")]

example : entityFlags whole ⟨false, false, true, false⟩ [(lit "_phong_angle", lit "45")] ⟨lit "glass", 0, false⟩ door =
    .ok { noShadow := true, noMinlight := true, phongAngle := 0x42340000#32 } := by
  decide +kernel

example : entityFlags whole ⟨false, false, true, false⟩ [] ⟨lit "brick", 0, false⟩ [(lit "targetname", lit "a")] = .ok {} :=
  plain_entity whole whole_lawful _ (Or.inl rfl) _ _ _ (by decide +kernel) (by decide +kernel) rfl rfl (by decide +kernel)
    (by decide +kernel) (by decide +kernel) (by decide +kernel)

example : entityFlags whole ⟨false, false, true, false⟩ [(lit "_phong_angle", lit "45")] ⟨lit "glass", 0, false⟩ door =
    entityFlags whole ⟨false, false, true, false⟩ [(lit "_phong_angle", lit "45")] ⟨lit "glass", 0, false⟩
      (EntData.set door (lit "_phong_angle") (lit "45")) :=
  inherited whole _ _ _ _ "_phong_angle" _ (by decide) (by decide +kernel) (by decide +kernel)

/-- 300, as a `float`, is such a component. -/
example : F32.leOne 0x43960000#32 = false ∧ ¬ Fits 0x43960000#32 := by
  refine ⟨by decide +kernel, fun h => ?_⟩
  have := h.2.2 (by decide +kernel)
  revert this
  decide +kernel

/-- 255 and every component between 0 and 255 fit. -/
example : Fits 0x437f0000#32 ∧ Fits 0x3f800000#32 ∧ Fits 0#32 := by
  refine ⟨⟨by decide +kernel, ?_, ?_⟩, ⟨by decide +kernel, ?_, ?_⟩, ⟨by decide +kernel, ?_, ?_⟩⟩ <;> decide +kernel

end Verif.TexFlags
