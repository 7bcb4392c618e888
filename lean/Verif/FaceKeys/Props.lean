import Verif.FaceKeys.Spec
import Mathlib.Tactic.Linarith
import Mathlib.Tactic.NormNum

/-!
C218: the settings of a face come from its model, its texture info and the world, in this order.
C219: lightmap scales, models and their shadows.
-/

namespace Verif.FaceKeys

open Spec

/-! ### C218: precedence -/

/-- **C218**: light comes from both sides if the model is translucent, if the face is said to be so, or if it is a liquid and not said to be
otherwise. -/
theorem twosided_iff (w : World) (m : Model) (x : Flags) (f : Face) (sup : Option ℚ) :
    (surface w m x f sup).twosided = true ↔ m.alpha < 1 ∨ x.twosided = some true ∨ (x.twosided = none ∧ f.translucent = true) := by
  simp only [surface]
  by_cases ha : m.alpha < 1
  · rw [if_pos ha]; simp [ha]
  · rw [if_neg ha]
    cases hx : x.twosided with
    | none => simp [ha]
    | some b => cases b <;> simp [ha]

/-- **C218**: dirt is left out on liquids, on models that ask for it and, if the model does not care, on faces that ask for it. -/
theorem nodirt_iff (w : World) (m : Model) (x : Flags) (f : Face) (sup : Option ℚ) :
    (surface w m x f sup).nodirt = true ↔ f.translucent = true ∨ m.dirt = some (-1) ∨ (m.dirt = none ∧ x.noDirt = true) := by
  simp only [surface]
  cases hf : f.translucent
  · rw [if_neg Bool.false_ne_true]
    cases hd : m.dirt with
    | none => simp
    | some d => simp
  · simp

/-- **C218**: minimum light, maximum light, the scale of colours, the colour of minimum light, its noise and the channels. A setting of the
model comes before one of the face, and this before one of the world; only channels of the face come before those of the model. -/
theorem surface_values (w : World) (m : Model) (x : Flags) (f : Face) (sup : Option ℚ) :
    let s := surface w m x f sup
    s.minlight = first [m.minlight, x.minlight] w.minlight * unit w.quake2
    ∧ s.maxlight = first [m.maxlight] x.maxlight * unit w.quake2
    ∧ s.colorscale = first [m.colorscale] x.colorscale
    ∧ s.mincolor = first [m.mincolor, if x.mincolor.all (· = 0) then none else some x.mincolor] w.mincolor
    ∧ s.mottle = first [m.mottle, w.mottle] false
    ∧ s.channels = first [x.channels] m.channels
    ∧ s.minscale = first [x.minscale] 1
    ∧ (s.curved = true ↔ x.phong = true ∨ f.phongValue = true) := by
  refine ⟨?_, ?_, ?_, ?_, ?_, ?_, ?_, ?_⟩
  · simp only [surface, first, unit]
    cases m.minlight <;> cases x.minlight <;> cases w.quake2 <;> simp
  · simp only [surface, first, unit]
    cases m.maxlight <;> cases w.quake2 <;> simp
  · simp only [surface, first]
    cases m.colorscale <;> simp
  · simp only [surface, first]
    cases m.mincolor with
    | some v => simp
    | none =>
      show (if emptyColor x.mincolor = false then x.mincolor else w.mincolor)
        = (List.findSome? id [none, if emptyColor x.mincolor = true then none else some x.mincolor]).getD w.mincolor
      by_cases he : emptyColor x.mincolor = true
      · rw [if_pos he, if_neg (by rw [he]; exact Bool.noConfusion)]; rfl
      · rw [if_neg he, if_pos (by simpa using he)]; rfl
  · simp only [surface, first]
    cases m.mottle <;> cases w.mottle <;> simp
  · simp only [surface, first]
    cases x.channels <;> simp
  · simp only [surface, first]
    cases x.minscale <;> simp
  · simp [surface]

/-- **C218**: decoupled lightmaps have the units of the face, or else of the options; sky in Quake II has 512. -/
theorem decoupled_units (w : World) (m : Model) (x : Flags) (f : Face) (sup : Option ℚ) (u : ℚ) (hu : w.unitsPerLuxel = some u) :
    (surface w m x f sup).extents = .inr (if w.quake2 = true ∧ f.sky = true then 512 else first [x.unitsPerLuxel] u) := by
  simp only [surface, hu, first]
  cases x.unitsPerLuxel <;> simp

/-- **C218**: the minimum light applied in Quake is the greater of what was set for the face and for the world. -/
theorem minimum_value (w : World) (m : Model) (x : Flags) (f : Face) (sup : Option ℚ) (hq : w.quake2 = false) :
    (minimum w (surface w m x f sup)).elim 0 Prod.fst = max (first [m.minlight, x.minlight] w.minlight) w.minlight := by
  have h := (surface_values w m x f sup).1
  simp only [unit, hq, Bool.false_eq_true, if_false, mul_one] at h
  unfold minimum
  rw [h]
  by_cases hg : first [m.minlight, x.minlight] w.minlight > w.minlight
  · rw [if_pos hg, max_eq_left (le_of_lt hg)]
    by_cases hz : first [m.minlight, x.minlight] w.minlight ≠ 0
    · rw [if_pos hz]; rfl
    · rw [if_neg hz]; exact (not_not.1 hz).symm
  · rw [if_neg hg, max_eq_right (not_lt.1 hg)]
    by_cases hz : w.minlight ≠ 0
    · rw [if_pos hz]; rfl
    · rw [if_neg hz]; exact (not_not.1 hz).symm

/-- **C218**: its colour is that of the face if its minimum light is greater than the world's. -/
theorem minimum_color (w : World) (m : Model) (x : Flags) (f : Face) (sup : Option ℚ) (v : ℚ) (c : List ℚ)
    (h : minimum w (surface w m x f sup) = some (v, c)) :
    c = if first [m.minlight, x.minlight] w.minlight * unit w.quake2 > w.minlight then (surface w m x f sup).mincolor else w.mincolor := by
  have hm := (surface_values w m x f sup).1
  unfold minimum at h
  rw [hm] at h
  by_cases hg : first [m.minlight, x.minlight] w.minlight * unit w.quake2 > w.minlight
  · rw [if_pos hg] at h
    rw [if_pos hg]
    dsimp only at h
    split at h
    · exact (congrArg Prod.snd (Option.some.inj h)).symm
    · cases h
  · rw [if_neg hg] at h
    rw [if_neg hg]
    dsimp only at h
    split at h
    · exact (congrArg Prod.snd (Option.some.inj h)).symm
    · cases h

/-- **C218** (finding): a colour of minimum light set for a model or face has no effect in Quake unless minimum light greater than the
world's is set there too. -/
theorem color_ignored (w : World) (m : Model) (x : Flags) (f : Face) (sup : Option ℚ) (hq : w.quake2 = false)
    (hm : m.minlight = none) (hx : x.minlight = none) (v : ℚ) (c : List ℚ) (h : minimum w (surface w m x f sup) = some (v, c)) : c = w.mincolor := by
  rw [minimum_color w m x f sup v c h, hm, hx, hq]
  simp [first, unit]

/-- **C218** (finding): in Quake a model cannot have less minimum light than the world. -/
theorem never_lower (w : World) (m : Model) (x : Flags) (f : Face) (sup : Option ℚ) (hq : w.quake2 = false) :
    w.minlight ≤ (minimum w (surface w m x f sup)).elim 0 Prod.fst := by
  rw [minimum_value w m x f sup hq]; exact le_max_right _ _

/-- **C218** (finding): in Quake II it can, as its minimum light is compared with the world's in other units: with minimum light 0 of the
model and 1/5 of the world, the face is raised to 1/5 of 255, not to 128/5. -/
theorem quake2_lower (w : World) (m : Model) (x : Flags) (f : Face) (sup : Option ℚ) (hq : w.quake2 = true)
    (hm : m.minlight = some 0) (hw : w.minlight = 1 / 5) :
    minimum w (surface w m x f sup) = some (1 / 5, w.mincolor)
      ∧ (minimum w (surface w { m with minlight := none } { x with minlight := none } f sup)).elim 0 Prod.fst = 128 / 5 := by
  constructor
  · have h := (surface_values w m x f sup).1
    unfold minimum
    rw [h, hm, hw, hq]
    norm_num [first, unit]
  · have h := (surface_values w { m with minlight := none } { x with minlight := none } f sup).1
    unfold minimum
    rw [h, hw, hq]
    norm_num [first, unit]

/-! ### C219: scales -/

/-- **C219**: a map has scale 16 unless its key is a positive number; a negative one is an error. -/
theorem mapScale_value (key : Int) :
    (mapScale key = .error ↔ key < 0) ∧ (key = 0 → mapScale key = .ok 16) ∧ (0 < key → mapScale key = .ok (key : ℚ)) := by
  unfold mapScale
  refine ⟨?_, ?_, ?_⟩
  · by_cases h0 : key = 0
    · subst h0; simp
    · simp only [if_neg h0]
      by_cases hk : key ≤ 0
      · simp only [if_pos hk, true_iff]; omega
      · simp only [if_neg hk]
        constructor
        · intro h; cases h
        · intro h; omega
  · intro h; subst h; simp
  · intro h
    have h0 : key ≠ 0 := by omega
    rw [if_neg h0, if_neg h0, if_neg (by omega)]

theorem countTo_value (scale : Int) : ∀ (fuel : ℕ) (i : Int), i ≤ scale → scale ≤ i + fuel → countTo scale i fuel = scale := by
  intro fuel
  induction fuel with
  | zero => intro i h1 h2; unfold countTo; push_cast at h2; omega
  | succ n ih =>
    intro i h1 h2
    unfold countTo
    by_cases h : i < scale
    · rw [if_pos h]; exact ih _ (by omega) (by push_cast at h2; omega)
    · rw [if_neg h]; omega

/-- **C219** (finding): the warning about scales that are no powers of 2 is never printed. -/
theorem never_warns (scale : Int) (h : 0 < scale) : warns scale = false := by
  unfold warns
  rw [countTo_value scale _ 1 (by omega) (by omega)]
  simp

/-- **C219**: the scale of a face is the smaller one of the map's and that of its LMSHIFT byte. -/
theorem scale_value (w : World) (m : Model) (x : Flags) (f : Face) (s : ℚ) :
    (surface w m x f (some s)).scale = min s m.scale ∧ (surface w m x f none).scale = m.scale := by
  constructor
  · show (if s < m.scale then s else m.scale) = min s m.scale
    by_cases h : s < m.scale
    · rw [if_pos h, min_eq_left (le_of_lt h)]
    · rw [if_neg h, min_eq_right (not_lt.1 h)]
  · rfl

/-- **C219** (finding): a face with a coarser scale than the map's in the LMSHIFT lump is lit with the scale of the map, while an engine
that knows the lump uses the coarser one. -/
theorem coarser_ignored (w : World) (m : Model) (x : Flags) (f : Face) (lump : List ℕ) (i : ℕ) (b : ℕ) (hb : lump[i]? = some b) (hb' : b < 31)
    (hs : m.scale < 2 ^ b) :
    ∃ s : Int, shiftScale lump i = .ok s ∧ (surface w m x f (some s)).scale = m.scale ∧ engineScale lump i = some (2 ^ b) := by
  refine ⟨2 ^ b, ?_, ?_, ?_⟩
  · unfold shiftScale
    rw [hb]
    dsimp only
    rw [if_pos (by omega), if_pos (by omega), if_neg (by omega)]
  · rw [(scale_value w m x f _).1]
    push_cast
    exact min_eq_right (le_of_lt hs)
  · unfold engineScale; rw [hb]; rfl

/-- **C219** (partial): with a lump of a byte for each face, all below 31, faces get supplementary scales: powers of 2, as an engine has
them. -/
theorem shifts_partial (lump : List ℕ) (lit2 : Bool) (scale : ℚ) (faces : ℕ) (hn : faces ≤ lump.length) (hb : ∀ b ∈ lump, b < 31) :
    supScales false none (some lump) lit2 scale faces = .ok (some ((lump.take faces).map fun b => (2 : ℚ) ^ b)) := by
  have go : ∀ k n, n + k ≤ lump.length →
      supScales.go lump (List.range' n k) = .ok (some (((lump.drop n).take k).map fun b => (2 : ℚ) ^ b)) := by
    intro k
    induction k with
    | zero => intro n _; simp [supScales.go]
    | succ k ih =>
      intro n hn
      have hlt : n < lump.length := by omega
      have hd : lump.drop n = lump[n] :: lump.drop (n + 1) := List.drop_eq_getElem_cons hlt
      have hbn : lump[n] < 31 := hb _ (List.getElem_mem hlt)
      rw [List.range'_succ, hd, List.take_succ_cons, List.map_cons]
      unfold supScales.go
      have hs : shiftScale lump n = .ok (2 ^ lump[n]) := by
        unfold shiftScale
        rw [List.getElem?_eq_getElem hlt]
        dsimp only
        rw [if_pos (by omega), if_pos (by omega), if_neg (by omega)]
      rw [hs, Outcome.ok_bind, ih (n + 1) (by omega), Outcome.ok_bind]
      simp
  have h := go faces 0 (by omega)
  rw [List.drop_zero] at h
  unfold supScales
  simp only [Bool.false_eq_true, if_false]
  rw [List.range_eq_range', h]

/-- **C219** (finding): a lump that is shorter than the list of faces is read behind its end. -/
theorem short_lump_ub (lump : List ℕ) (lit2 : Bool) (scale : ℚ) (faces : ℕ) (hn : lump.length < faces) (hb : ∀ b ∈ lump, b < 31) :
    supScales false none (some lump) lit2 scale faces = .ub := by
  have go : ∀ k n, n ≤ lump.length → lump.length < n + k → supScales.go lump (List.range' n k) = .ub := by
    intro k
    induction k with
    | zero => intro n h1 h2; omega
    | succ k ih =>
      intro n h1 h2
      rw [List.range'_succ]
      unfold supScales.go
      by_cases hlt : n < lump.length
      · have hbn : lump[n] < 31 := hb _ (List.getElem_mem hlt)
        have hs : shiftScale lump n = .ok (2 ^ lump[n]) := by
          unfold shiftScale
          rw [List.getElem?_eq_getElem hlt]
          dsimp only
          rw [if_pos (by omega), if_pos (by omega), if_neg (by omega)]
        rw [hs, Outcome.ok_bind, ih (n + 1) (by omega) (by omega)]
        rfl
      · have hs : shiftScale lump n = .ub := by
          unfold shiftScale
          rw [List.getElem?_eq_none (by omega)]
        rw [hs]; rfl
  unfold supScales
  simp only [Bool.false_eq_true, if_false]
  rw [List.range_eq_range']
  exact go faces 0 (by omega) (by omega)

/-- **C219** (finding): and shifts of 32 and more, as with `-lmshift 32`, are undefined. -/
theorem large_shift_ub (v : Int) (h1 : 32 ≤ v) (h2 : v < 256) (lump : Option (List ℕ)) (lit2 : Bool) (scale : ℚ) (faces : ℕ) (hf : 0 < faces) :
    supScales false (some v) lump lit2 scale faces = .ub := by
  obtain ⟨k, rfl⟩ : ∃ k, faces = k + 1 := ⟨faces - 1, by omega⟩
  unfold supScales
  simp only [Bool.false_eq_true, if_false]
  rw [List.range_succ_eq_map]
  unfold supScales.go
  have hv : v % 256 = v := Int.emod_eq_of_lt (by omega) h2
  have hs : shiftScale (List.replicate (k + 1) (v % 256).toNat) 0 = .ub := by
    unfold shiftScale
    rw [hv, List.replicate_succ, List.getElem?_cons_zero]
    dsimp only
    by_cases h : v.toNat < 128
    · rw [if_pos h, if_neg (by omega)]
    · rw [if_neg h]
  rw [hs]; rfl

/-! ### C219: models -/

/-- **C219**: the model of a face is the first one that has it in its range. -/
theorem modelOf_some (models : List (Int × Int)) (face : Int) (i : ℕ) :
    modelOf models face = some i ↔ ∃ m, models[i]? = some m ∧ m.1 ≤ face ∧ face < m.1 + m.2
      ∧ ∀ j < i, ∀ m', models[j]? = some m' → ¬ (m'.1 ≤ face ∧ face < m'.1 + m'.2) := by
  unfold modelOf
  rw [List.findIdx?_eq_some_iff_getElem]
  constructor
  · rintro ⟨h, h1, h2⟩
    refine ⟨models[i], List.getElem?_eq_getElem h, ?_, ?_, ?_⟩
    · simp only [Bool.and_eq_true, decide_eq_true_eq, not_lt] at h1; exact h1.1
    · simp only [Bool.and_eq_true, decide_eq_true_eq, not_lt] at h1; exact h1.2
    · intro j hj m' hm' ⟨h3, h4⟩
      have := h2 j hj
      have hjl : j < models.length := by omega
      rw [List.getElem?_eq_getElem hjl] at hm'
      cases hm'
      simp only [Bool.and_eq_true, decide_eq_true_eq, not_lt] at this
      exact this ⟨h3, h4⟩
  · rintro ⟨m, hm, h1, h2, h3⟩
    obtain ⟨h, rfl⟩ := List.getElem?_eq_some_iff.1 hm
    refine ⟨h, ?_, ?_⟩
    · simp only [Bool.and_eq_true, decide_eq_true_eq, not_lt]; exact ⟨h1, h2⟩
    · intro j hj
      have hjl : j < models.length := by omega
      have := h3 j hj _ (List.getElem?_eq_getElem hjl)
      simp only [Bool.and_eq_true, decide_eq_true_eq, not_lt]; exact this

/-- **C219**: a model is on one list at most, switchable before `_shadow` before `_shadowself` before `_shadowworldonly`. -/
theorem listOf_value (s : Shadows) (r : Option ListName) :
    listOf s = .ok r ↔ (s.switchable = true ∧ s.style ≠ 0 ∧ r = some .switchable) ∨ (s.switchable = false ∧
      ((s.shadow = true ∧ r = some .trace) ∨ (s.shadow = false ∧ s.self = true ∧ r = some .self)
        ∨ (s.shadow = false ∧ s.self = false ∧ s.worldOnly = true ∧ r = some .worldOnly)
        ∨ (s.shadow = false ∧ s.self = false ∧ s.worldOnly = false ∧ r = none))) := by
  unfold listOf
  cases h1 : s.switchable <;> cases h2 : s.shadow <;> cases h3 : s.self <;> cases h4 : s.worldOnly <;>
    by_cases h5 : s.style = 0 <;> simp [h5, eq_comm]

/-- **C219**: `light` goes on exactly if there is a model, every model but the world has an entity, and every switchable shadow has a style;
then the world casts shadows and the others are on the lists of their keys. -/
theorem modelLists_ok (find : ℕ → Option Shadows) (count : ℕ) (r : List (Option ListName)) :
    modelLists find count = .ok r ↔ 0 < count ∧ r.length = count ∧ r[0]? = some (some .trace) ∧
      ∀ i, 0 < i → i < count → ∃ s a, find i = some s ∧ listOf s = .ok a ∧ r[i]? = some a := by
  have go : ∀ k n (r : List (Option ListName)), modelLists.go find (List.range' n k) = .ok r ↔
      r.length = k ∧ ∀ i < k, ∃ s a, find (n + i) = some s ∧ listOf s = .ok a ∧ r[i]? = some a := by
    intro k
    induction k with
    | zero =>
      intro n r
      simp only [List.range'_zero, modelLists.go]
      constructor
      · intro h; cases h; exact ⟨rfl, fun i hi => by omega⟩
      · rintro ⟨h, -⟩
        rw [List.length_eq_zero_iff.1 h]
    | succ k ih =>
      intro n r
      rw [List.range'_succ]
      unfold modelLists.go
      constructor
      · intro h
        cases hf : find n with
        | none => rw [hf] at h; cases h
        | some s =>
          rw [hf] at h
          dsimp only at h
          obtain ⟨a, ha, h⟩ := Outcome.bind_eq_ok.1 h
          obtain ⟨t, ht, h⟩ := Outcome.bind_eq_ok.1 h
          cases h
          obtain ⟨h1, h2⟩ := (ih (n + 1) t).1 ht
          refine ⟨by simp [h1], ?_⟩
          intro i hi
          cases i with
          | zero => exact ⟨s, a, hf, ha, rfl⟩
          | succ i =>
            obtain ⟨s', a', h3, h4, h5⟩ := h2 i (by omega)
            exact ⟨s', a', by rw [← h3]; congr 1; omega, h4, by simpa using h5⟩
      · rintro ⟨h1, h2⟩
        obtain ⟨s, a, h3, h4, h5⟩ := h2 0 (by omega)
        cases r with
        | nil => simp at h1
        | cons b t =>
          have : b = a := by simpa using h5
          subst this
          rw [Nat.add_zero] at h3
          rw [h3]
          dsimp only
          rw [h4, Outcome.ok_bind]
          have ht : modelLists.go find (List.range' (n + 1) k) = .ok t := by
            rw [ih]
            refine ⟨by simpa using h1, ?_⟩
            intro i hi
            obtain ⟨s', a', h6, h7, h8⟩ := h2 (i + 1) (by omega)
            exact ⟨s', a', by rw [← h6]; congr 1; omega, h7, by simpa using h8⟩
          rw [ht, Outcome.ok_bind]
  unfold modelLists
  by_cases hc : count = 0
  · rw [if_pos hc]
    constructor
    · intro h; cases h
    · rintro ⟨h, -⟩; omega
  · rw [if_neg hc]
    constructor
    · intro h
      obtain ⟨t, ht, h⟩ := Outcome.bind_eq_ok.1 h
      cases h
      obtain ⟨h1, h2⟩ := (go _ _ t).1 ht
      refine ⟨by omega, by simp [h1]; omega, rfl, ?_⟩
      intro i hi hi'
      obtain ⟨s, a, h3, h4, h5⟩ := h2 (i - 1) (by omega)
      refine ⟨s, a, by rw [← h3]; congr 1; omega, h4, ?_⟩
      obtain ⟨j, rfl⟩ : ∃ j, i = j + 1 := ⟨i - 1, by omega⟩
      simpa using h5
    · rintro ⟨-, h1, h2, h3⟩
      cases r with
      | nil => simp at h1; omega
      | cons b t =>
        have : b = some .trace := by simpa using h2
        subst this
        have ht : modelLists.go find (List.range' 1 (count - 1)) = .ok t := by
          rw [go]
          have h1 : t.length + 1 = count := by simpa using h1
          refine ⟨by omega, ?_⟩
          intro i hi
          obtain ⟨s, a, h4, h5, h6⟩ := h3 (i + 1) (by omega) (by omega)
          exact ⟨s, a, by rw [← h4]; congr 1; omega, h5, by simpa using h6⟩
        rw [ht, Outcome.ok_bind]

/-! ### The hypotheses are met -/

def worldEx : World := ⟨false, 20, [255, 255, 255], none, none⟩
def modelEx : Model := ⟨none, none, none, none, none, some [255, 0, 0], 1, 1, 16⟩
def flagsEx : Flags := ⟨false, none, false, none, 0, 1, [0, 0, 0], none, none, none⟩

/-- A red model in a map with white minimum light of 20 is white, unless it has minimum light of its own above 20. -/
example : minimum worldEx (surface worldEx modelEx flagsEx ⟨false, false, false⟩ none) = some (20, [255, 255, 255]) := by decide +kernel
example : minimum worldEx (surface worldEx { modelEx with minlight := some 21 } flagsEx ⟨false, false, false⟩ none) = some (21, [255, 0, 0]) := by
  decide +kernel
example : minimum { worldEx with quake2 := true, minlight := 1 / 5 } (surface { worldEx with quake2 := true, minlight := 1 / 5 } { modelEx with minlight := some 0 }
    flagsEx ⟨false, false, false⟩ none) = some (1 / 5, [255, 255, 255]) := by decide +kernel
/-- **C219**: with `-lightmap_scale`, neither the lump nor `-lmshift` matters. -/
theorem scales_forced (option : Option Int) (lump : Option (List ℕ)) (scale : ℚ) (faces : ℕ) :
    supScales true option lump true scale faces = .ok (some (List.replicate faces scale)) ∧
    supScales true option lump false scale faces = .ok none := ⟨rfl, rfl⟩

example : supScales false none (some [4, 5, 0]) false 16 3 = .ok (some [16, 32, 1]) := by decide +kernel
example : (surface worldEx modelEx flagsEx ⟨false, false, false⟩ (some 32)).scale = 16 ∧ engineScale [4, 5, 0] 1 = some 32 := by decide +kernel
example : modelOf [(0, 10), (10, 6)] 12 = some 1 ∧ modelOf [(0, 10), (10, 6)] 16 = none := by decide +kernel
example : modelLists (fun i => if i = 1 then some ⟨true, 33, true, false, false⟩ else some ⟨false, 0, true, true, false⟩) 3
    = .ok [some .trace, some .switchable, some .trace] := by decide +kernel

end Verif.FaceKeys
