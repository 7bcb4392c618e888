import Verif.Suns.DomeProps
import Verif.Cmdlib.Lemmas
import Mathlib.Tactic.IntervalCases

/-!
C186: jittered lights. C187: targets. C188: lights that touch a wall.
-/

namespace Verif.Suns

open Verif.Geom Verif.Phong

theorem copies_length (r : ℕ → ℝ) (l : Lamp) (n at' : ℕ) : (copies r l n at').length = n := by
  induction n generalizing at' with
  | zero => rfl
  | succ n ih => simp [copies, ih]

theorem mem_copies {r : ℕ → ℝ} (hr : Draws r) {l m : Lamp} {n at' : ℕ} (h : m ∈ copies r l n at') :
    ∃ u v w, (0 ≤ u ∧ u ≤ 1) ∧ (0 ≤ v ∧ v ≤ 1) ∧ (0 ≤ w ∧ w ≤ 1) ∧ m = copyAt l u v w := by
  induction n generalizing at' with
  | zero => cases h
  | succ n ih =>
    simp only [copies, List.mem_cons] at h
    rcases h with rfl | h
    · exact ⟨_, _, _, hr _, hr _, hr _, rfl⟩
    · exact ih h

theorem jitterOne_length (r : ℕ → ℝ) (l : Lamp) (at' : ℕ) :
    (jitterOne r at' l).length = if l.sun then 0 else l.samples - 1 := by
  unfold jitterOne
  split
  · rfl
  · exact copies_length _ _ _ _

theorem jitterNew_length (r : ℕ → ℝ) (ls : List Lamp) (at' : ℕ) :
    (jitterNew r at' ls).length = (ls.map fun l => if l.sun then 0 else l.samples - 1).sum := by
  induction ls generalizing at' with
  | nil => rfl
  | cons l ls ih =>
    simp only [jitterNew]
    rw [List.length_append, ih, jitterOne_length, List.map_cons, List.sum_cons]

theorem mem_jitterNew {r : ℕ → ℝ} (hr : Draws r) {m : Lamp} {ls : List Lamp} {at' : ℕ} (h : m ∈ jitterNew r at' ls) :
    ∃ l ∈ ls, l.sun = false ∧
      ∃ u v w, (0 ≤ u ∧ u ≤ 1) ∧ (0 ≤ v ∧ v ≤ 1) ∧ (0 ≤ w ∧ w ≤ 1) ∧ m = copyAt l u v w := by
  induction ls generalizing at' with
  | nil => cases h
  | cons l ls ih =>
    simp only [jitterNew] at h
    rcases List.mem_append.1 h with h | h
    · unfold jitterOne at h
      split at h
      · cases h
      · next hs => exact ⟨l, List.mem_cons_self, by simpa using hs, mem_copies hr h⟩
    · obtain ⟨l', a, b⟩ := ih h
      exact ⟨l', List.mem_cons_of_mem _ a, b⟩

theorem nudge_near {u : ℝ} (h : 0 ≤ u ∧ u ≤ 1) (x d : ℝ) : |nudge x u d - x| ≤ |d| := by
  have : nudge x u d - x = (u * 2 - 1) * d := by unfold nudge; ring
  rw [this]
  exact abs_draw h d

/-- C186: every light stays, first and as it is. A light that is not a sun gets one copy less than it has samples; a
copy differs from it in nothing but its place, and in that it is not written to the map; its place is no more than the
deviance off along each axis.

Missing: that it is no more than the deviance away. This is false, see `jitter_outside_sphere`. -/
theorem jitter_copies_partial (r : ℕ → ℝ) (hr : Draws r) (at' : ℕ) (ls : List Lamp) :
    ∃ new, jitterAll r at' ls = ls ++ new ∧
      new.length = (ls.map fun l => if l.sun then 0 else l.samples - 1).sum ∧
      ∀ m ∈ new, ∃ l ∈ ls, l.sun = false ∧ m.generated = true ∧
        { m with origin := l.origin, generated := l.generated } = l ∧
        |m.origin.x - l.origin.x| ≤ |l.deviance| ∧ |m.origin.y - l.origin.y| ≤ |l.deviance| ∧
        |m.origin.z - l.origin.z| ≤ |l.deviance| := by
  refine ⟨jitterNew r at' ls, rfl, jitterNew_length r ls at', ?_⟩
  intro m hm
  obtain ⟨l, hl, hs, u, v, w, hu, hv, hw, rfl⟩ := mem_jitterNew hr hm
  exact ⟨l, hl, hs, rfl, rfl, nudge_near hu _ _, nudge_near hv _ _, nudge_near hw _ _⟩

/-- Two copies of a lamp with three samples. -/
example : ∃ new, jitterAll (fun _ => 1 / 4) 0 [{ plain with sun := false, samples := 3, deviance := 8 }]
      = { plain with sun := false, samples := 3, deviance := 8 } :: new ∧ new.length = 2 := by
  obtain ⟨new, h1, h2, -⟩ := jitter_copies_partial (fun _ => 1 / 4) (fun _ => ⟨by norm_num, by norm_num⟩) 0
    [{ plain with sun := false, samples := 3, deviance := 8 }]
  exact ⟨new, h1, by rw [h2]; simp⟩

/-- C186, against the code: the copies fill a cube, not the sphere that is documented. -/
theorem jitter_outside_sphere : ∃ (r : ℕ → ℝ) (l : Lamp), Draws r ∧ l.sun = false ∧
    ∃ m ∈ jitterAll r 0 [l], l.deviance * l.deviance < dot (sub m.origin l.origin) (sub m.origin l.origin) := by
  refine ⟨fun _ => 1, { plain with sun := false, samples := 2, deviance := 10 }, fun _ => ⟨zero_le_one, le_refl _⟩, rfl,
    copyAt { plain with sun := false, samples := 2, deviance := 10 } 1 1 1, ?_, ?_⟩
  · simp [jitterAll, jitterNew, jitterOne, copies]
  · norm_num [copyAt, nudge, sub, dot, plain]

theorem sum_copies (r : ℕ → ℝ) (l : Lamp) (n at' : ℕ) : ((copies r l n at').map (·.light)).sum = n * l.light := by
  induction n generalizing at' with
  | zero => simp [copies]
  | succ n ih =>
    simp only [copies, List.map_cons, List.sum_cons]
    rw [ih]
    push_cast
    have : (copyAt l (r at') (r (at' + 1)) (r (at' + 2))).light = l.light := rfl
    rw [this]
    ring

/-- C186: a light and its copies together have the light given by its key, if its formula is one of those that say so:
inverse, both inverse squares and infinite. -/
theorem jitter_light (r : ℕ → ℝ) (at' : ℕ) (global : ℝ) (addmin : Bool) (raw : Illum.Raw) (l : Lamp) (hs : l.sun = false)
    (hf : raw.base.formula = .inverse ∨ raw.base.formula = .inverse2 ∨ raw.base.formula = .infinite ∨
      raw.base.formula = .inverse2a) :
    ((jitterAll r at' [readLamp global addmin raw l]).map (·.light)).sum
      = if raw.lightSet then raw.base.light else 300 := by
  have hd : Illum.divides addmin raw.base.formula = true := by
    rcases hf with h | h | h | h <;> rw [h] <;> rfl
  have hj : 1 ≤ Illum.jitter raw.deviance raw.samples := by
    unfold Illum.jitter
    simp only
    generalize (if raw.deviance > 0 ∧ raw.samples = 0 then 16 else raw.samples) = n
    split
    · exact le_refl 1
    · next h => exact le_of_lt (not_le.1 (not_or.1 h).2)
  have hlight : (readLamp global addmin raw l).light
      = (if raw.lightSet then raw.base.light else 300) / (Illum.jitter raw.deviance raw.samples : ℕ) := by
    unfold readLamp Illum.checkFields
    simp only
    rw [if_pos hd]
  have hsamp : (readLamp global addmin raw l).samples = Illum.jitter raw.deviance raw.samples := rfl
  have hsun : (readLamp global addmin raw l).sun = false := hs
  unfold jitterAll jitterNew jitterNew jitterOne
  simp only
  rw [hsun, hsamp]
  simp only [Bool.false_eq_true, if_false, List.append_nil, List.map_append, List.sum_append, List.map_cons,
    List.map_nil, List.sum_cons, List.sum_nil, add_zero]
  rw [sum_copies, hlight]
  have h0 : ((Illum.jitter raw.deviance raw.samples : ℕ) : ℝ) ≠ 0 := Nat.cast_ne_zero.2 (by omega)
  rw [Nat.cast_sub hj]
  push_cast
  field_simp
  ring

/-- An inverse light with 16 samples. -/
example : ((jitterAll (fun _ => 0) 0 [readLamp 1 false (keys 320 .inverse 5) { plain with sun := false }]).map
    (·.light)).sum = 320 :=
  jitter_light (fun _ => 0) 0 1 false (keys 320 .inverse 5) { plain with sun := false } rfl (Or.inl rfl)

/-- C186, against the code: a dome is jittered as if it were a light at a place. With a linear formula, the default, and
a deviance, each of the 16 copies becomes a dome with the whole light. -/
theorem dome_multiplied (cfg : Cfg) (hn : 8 ≤ cfg.sunsamples) (r : ℕ → ℝ) :
    ∃ (raw : Illum.Raw) (l : Lamp), raw.lightSet = true ∧ raw.base.light = 100 ∧ raw.base.formula = .linear ∧
      l.sunlight2 = true ∧
      total (skyDomes cfg noHalf noHalf (jitterAll r 0 [readLamp 1 false raw l])).2 = 1600 := by
  refine ⟨keys 100 .linear 5, { plain with sun := false, sunlight2 := true }, rfl, rfl, rfl, rfl, ?_⟩
  have h := (domes_total cfg hn noHalf noHalf (le_refl _) (le_refl _)
    (jitterAll r 0 [readLamp 1 false (keys 100 .linear 5) { plain with sun := false, sunlight2 := true }])).2
  rw [h]
  generalize hl : readLamp 1 false (keys 100 .linear 5) { plain with sun := false, sunlight2 := true } = l
  have hlight : l.light = 100 := by
    rw [← hl]
    unfold readLamp Illum.checkFields keys
    norm_num [Illum.divides]
  have hsamp : l.samples = 16 := by
    rw [← hl]
    unfold readLamp Illum.checkFields Illum.jitter keys
    norm_num
  have hsun : l.sun = false := by rw [← hl]; rfl
  have hs2 : l.sunlight2 = true := by rw [← hl]; rfl
  have hcop : ∀ n at', ((copies r l n at').map fun l : Lamp =>
      if (l.sunlight2 = true ∨ l.sunlight3 = true) ∧ l.light > 0 then l.light else 0).sum = n * 100 := by
    intro n
    induction n with
    | zero => intro at'; simp [copies]
    | succ n ih =>
      intro at'
      simp only [copies, List.map_cons, List.sum_cons]
      rw [ih, if_pos]
      · have : (copyAt l (r at') (r (at' + 1)) (r (at' + 2))).light = l.light := rfl
        rw [this, hlight]
        push_cast
        ring
      · refine ⟨Or.inl hs2, ?_⟩
        have : (copyAt l (r at') (r (at' + 1)) (r (at' + 2))).light = l.light := rfl
        rw [this, hlight]
        norm_num
  unfold jitterAll jitterNew jitterNew jitterOne
  simp only
  rw [hsun, hsamp]
  simp only [Bool.false_eq_true, if_false, List.append_nil, List.map_append, List.sum_append, List.map_cons,
    List.map_nil, List.sum_cons, List.sum_nil, add_zero]
  rw [hcop, if_pos ⟨Or.inl hs2, by rw [hlight]; norm_num⟩, hlight]
  norm_num [noHalf]

theorem iequals_iff (a b : List UInt8) : Cmdlib.iequals a b = true ↔ SameName a b := Cmdlib.iequals_iff a b

theorem matchTarget_target (ents : List EntData.Dict) (l : Lamp) (ht : l.target = none)
    (hn : EntData.get l.pairs kTarget ≠ []) :
    (matchTarget ents l).target = findTarget ents (EntData.get l.pairs kTarget) := by
  unfold matchTarget
  simp only
  rw [if_neg hn]
  cases findTarget ents (EntData.get l.pairs kTarget) with
  | none => exact ht
  | some e => rfl

/-- C187: the target of a light is the first entity whose `targetname` is the light's `target`, in upper or lower case;
where there is none, or the key is empty, there is no target. Nothing else about the lights changes. -/
theorem targets (ents : List EntData.Dict) (ls : List Lamp) (h0 : ∀ l ∈ ls, l.target = none) :
    (matchTargets ents ls).length = ls.length ∧
    ∀ (i : ℕ) (l l' : Lamp), ls[i]? = some l → (matchTargets ents ls)[i]? = some l' →
      { l' with target := none } = l ∧
      (EntData.get l.pairs kTarget = [] → l'.target = none) ∧
      (EntData.get l.pairs kTarget ≠ [] → ∀ e, l'.target = some e ↔
        ∃ pre post, ents = pre ++ e :: post ∧ SameName (EntData.get l.pairs kTarget) (EntData.get e kTargetname) ∧
          ∀ d ∈ pre, ¬SameName (EntData.get l.pairs kTarget) (EntData.get d kTargetname)) := by
  refine ⟨by simp [matchTargets], ?_⟩
  intro i l l' hl hl'
  have ht : l.target = none := h0 l (List.mem_of_getElem? hl)
  unfold matchTargets at hl'
  rw [List.getElem?_map, hl] at hl'
  simp only [Option.map_some, Option.some.injEq] at hl'
  subst hl'
  have hself : ({ l with target := none } : Lamp) = l := by
    rw [← ht]
  refine ⟨?_, ?_, ?_⟩
  · unfold matchTarget
    simp only
    split
    · exact hself
    · split
      · exact hself
      · exact hself
  · intro hn
    unfold matchTarget
    simp only
    rw [if_pos hn]
    exact ht
  · intro hn e
    rw [matchTarget_target ents l ht hn]
    unfold findTarget
    rw [List.find?_eq_some_iff_append]
    constructor
    · rintro ⟨h1, pre, post, h2, h3⟩
      refine ⟨pre, post, h2, (iequals_iff _ _).1 h1, ?_⟩
      intro d hd hsame
      have := h3 d hd
      rw [(iequals_iff _ _).2 hsame] at this
      simp at this
    · rintro ⟨pre, post, h1, h2, h3⟩
      refine ⟨(iequals_iff _ _).2 h2, pre, post, h1, ?_⟩
      intro d hd
      have := h3 d hd
      rw [← iequals_iff] at this
      simpa using this

/-- `A` finds `a`, and not a later one. -/
example : ((matchTargets [[([99], [97])], [(kTargetname, [97])], [(kTargetname, [65])]]
    [{ plain with pairs := [(kTarget, [65])] }]).map (·.target)) = [some [(kTargetname, [97])]] := by
  simp only [matchTargets, matchTarget, List.map_cons, List.map_nil]
  have h1 : EntData.get [(kTarget, [65])] kTarget = [65] := by decide +kernel
  have h2 : findTarget [[([99], [97])], [(kTargetname, [97])], [(kTargetname, [65])]] [65]
      = some [(kTargetname, [97])] := by decide +kernel
  rw [h1, h2]
  rfl

/-- A place that is two units off along one axis. -/
def Beside (p q : Vec ℝ) : Prop :=
  ∃ d : ℝ, (d = 2 ∨ d = -2) ∧
    (q = ⟨p.x + d, p.y, p.z⟩ ∨ q = ⟨p.x, p.y + d, p.z⟩ ∨ q = ⟨p.x, p.y, p.z + d⟩)

theorem beside_iff (p q : Vec ℝ) : Beside p q ↔ ∃ i < 6, q = testPoint p 2 i := by
  constructor
  · rintro ⟨d, rfl | rfl, rfl | rfl | rfl⟩
    · exact ⟨1, by norm_num, by simp [testPoint]⟩
    · exact ⟨3, by norm_num, by simp [testPoint]⟩
    · exact ⟨5, by norm_num, by simp [testPoint]⟩
    · exact ⟨0, by norm_num, by simp [testPoint]⟩
    · exact ⟨2, by norm_num, by simp [testPoint]⟩
    · exact ⟨4, by norm_num, by simp [testPoint]⟩
  · rintro ⟨i, hi, rfl⟩
    interval_cases i
    · exact ⟨-2, Or.inr rfl, Or.inl (by simp [testPoint])⟩
    · exact ⟨2, Or.inl rfl, Or.inl (by simp [testPoint])⟩
    · exact ⟨-2, Or.inr rfl, Or.inr (Or.inl (by simp [testPoint]))⟩
    · exact ⟨2, Or.inl rfl, Or.inr (Or.inl (by simp [testPoint]))⟩
    · exact ⟨-2, Or.inr rfl, Or.inr (Or.inr (by simp [testPoint]))⟩
    · exact ⟨2, Or.inl rfl, Or.inr (Or.inr (by simp [testPoint]))⟩

/-- C188: a light that is in a wall is moved by two units along one axis, to a place that is not in a wall, if there is
one; all other lights stay where they are, and so do those that are off, that say so or that use channels. Nothing else
about the lights changes. -/
theorem lights_nudged (solid : Vec ℝ → Bool) (ls : List Lamp) :
    (fixLights solid ls).length = ls.length ∧
    ∀ (i : ℕ) (l l' : Lamp), ls[i]? = some l → (fixLights solid ls)[i]? = some l' →
      { l' with origin := l.origin } = l ∧
      (l'.origin ≠ l.origin → Beside l.origin l'.origin ∧ solid l.origin = true ∧ solid l'.origin = false ∧
        l.light ≠ 0 ∧ l.nonudge = false ∧ l.mask = 1 ∧ l.shadowMask = 1) ∧
      (l.light ≠ 0 → l.nonudge = false → l.mask = 1 → l.shadowMask = 1 → solid l'.origin = true →
        ∀ q, Beside l.origin q → solid q = true) := by
  refine ⟨by simp [fixLights], ?_⟩
  intro i l l' hl hl'
  unfold fixLights at hl'
  rw [List.getElem?_map, hl] at hl'
  simp only [Option.map_some, Option.some.injEq] at hl'
  subst hl'
  by_cases hm : mayMove l
  · rw [if_pos hm]
    refine ⟨rfl, ?_, ?_⟩
    · unfold fixLight
      intro hne
      split at hne
      · exact absurd rfl hne
      · next hs =>
        rw [if_neg hs]
        split
        · next k hk =>
          have hmem := List.mem_range.1 (List.mem_of_find?_eq_some hk)
          have hp := List.find?_some hk
          exact ⟨(beside_iff _ _).2 ⟨k, hmem, rfl⟩, by simpa using hs, by simpa using hp, hm.1, hm.2.1, hm.2.2.1,
            hm.2.2.2⟩
        · next hk =>
          rw [hk] at hne
          exact absurd rfl hne
    · intro _ _ _ _ hsol q hq
      unfold fixLight at hsol
      split at hsol
      · next h =>
        simp only at hsol
        rw [hsol] at h
        simp at h
      · split at hsol
        · next k hk =>
          have hp := List.find?_some hk
          simp only at hsol
          rw [hsol] at hp
          simp at hp
        · next hk =>
          rw [List.find?_eq_none] at hk
          obtain ⟨k, hk6, rfl⟩ := (beside_iff _ _).1 hq
          have := hk k (List.mem_range.2 hk6)
          simpa using this
  · rw [if_neg hm]
    exact ⟨rfl, fun h => absurd rfl h, fun a b c d => absurd ⟨a, b, c, d⟩ hm⟩

/-- A light in the floor below z = 0 is moved up. -/
example : ∃ l', (fixLights (fun p => decide (p.z ≤ 0)) [{ plain with origin := ⟨5, 6, -1⟩ }])[0]? = some l' ∧
    l'.origin = ⟨5, 6, 1⟩ := by
  have hm : mayMove { plain with origin := ⟨5, 6, -1⟩ } := ⟨by norm_num [plain], rfl, rfl, rfl⟩
  refine ⟨_, by simp only [fixLights, List.map_cons, List.map_nil, if_pos hm]; rfl, ?_⟩
  have h : (List.range 6).find? (fun i => !(decide ((testPoint (⟨5, 6, -1⟩ : Vec ℝ) 2 i).z ≤ 0))) = some 5 := by
    rw [show List.range 6 = [0, 1, 2, 3, 4, 5] from rfl]
    norm_num [testPoint, List.find?]
  unfold fixLight
  rw [if_neg (by norm_num)]
  simp only at h ⊢
  rw [h]
  simp only [testPoint]
  norm_num

/-- C184: whatever the random numbers, the lights are set up after finitely many steps. No light is lost, and no sun or
dome shines as a light of its own afterwards. -/
theorem lights_set_up (fuel : ℕ) (cfg : Cfg) (hn : 0 < cfg.sunsamples) (ents : List EntData.Dict)
    (place : EntData.Dict → Vec ℝ) (solid : Vec ℝ → Bool) (r : ℕ → ℝ) (hr : Draws r) (ls : List Lamp) (sun sun2 : World)
    (dev : ℝ) (up low : Half) :
    ∃ ls' suns, setupLights (fuel + 1) cfg ents place solid r ls sun sun2 dev up low = some (ls', suns) ∧
      ls'.length = ls.length + (ls.map fun l => if l.sun then 0 else l.samples - 1).sum ∧
      ∀ l ∈ ls', l.sun = true ∨ l.sunlight2 = true ∨ l.sunlight3 = true → l.light ≤ 0 := by
  obtain ⟨ls1, suns, last, h1, -, h3⟩ := suns_total cfg hn place r hr fuel (3 * (jitterNew r 0 ls).length)
    (matchTargets ents (jitterAll r 0 ls)) sun sun2 dev
  unfold setupLights
  simp only
  rw [h1]
  refine ⟨_, _, rfl, ?_, ?_⟩
  · rw [h3]
    simp [fixLights, skyDomes, matchTargets, jitterAll, jitterNew_length]
  · intro l hl hk
    unfold fixLights skyDomes at hl
    simp only at hl
    obtain ⟨l2, hl2, e2⟩ := List.mem_map.1 hl
    obtain ⟨l1, hl1, e1⟩ := List.mem_map.1 hl2
    rw [h3] at hl1
    obtain ⟨l0, -, e0⟩ := List.mem_map.1 hl1
    have k2 : l.light = l2.light ∧ l.sun = l2.sun ∧ l.sunlight2 = l2.sunlight2 ∧ l.sunlight3 = l2.sunlight3 := by
      rw [← e2]
      split <;> exact ⟨rfl, rfl, rfl, rfl⟩
    rw [k2.1]
    rw [k2.2.1, k2.2.2.1, k2.2.2.2] at hk
    by_cases hd : isDome l1
    · rw [if_pos hd] at e1
      rw [← e1]
    · rw [if_neg hd] at e1
      subst e1
      rcases hk with hk | hk
      · by_cases hs : l0.sun = true ∧ l0.light > 0
        · rw [if_pos hs] at e0
          rw [← e0]
        · rw [if_neg hs] at e0
          subst e0
          exact not_lt.1 fun h => hs ⟨hk, h⟩
      · exact not_lt.1 fun h => hd ⟨hk, h⟩

end Verif.Suns
