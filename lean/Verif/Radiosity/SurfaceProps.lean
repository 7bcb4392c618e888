import Verif.Radiosity.EmitLemmas
import Verif.Radiosity.DiceProps

/-!
Surfaces that emit light (C195, C196).
-/

namespace Verif.Radiosity

open Verif.Geom Verif.SurfLights

variable {K : Type} [Field K] [LinearOrder K]

/-- The setting of a source. -/
def settingOf (e : Env K) (f : Surface K) (before : Nat) (s : Source K) : Setting K :=
  ⟨none, (match f.target with | some t => t | none => f.style.getD s.style), !s.directional, f.rescale.getD (!s.sky),
    vmax (tint e f s) * f.area, vmax (tint e f s) * f.area / before, capped (tint e f s)⟩

/-- A fresh surface light. -/
def fresh (e : Env K) (f : Surface K) : Vpl K :=
  ⟨(surfacePoints e f).1, f.normal, (surfacePoints e f).2.2, (surfacePoints e f).2.1, []⟩

theorem make_eq (e : Env K) (f : Surface K) (vpl : Option (Vpl K)) (s : Source K) (he : f.emissive = true)
    (ha : ¬ f.area < 1) :
    makeSurfaceLight e f vpl s = if vmax (tint e f s) = 0 then vpl else
      (if (vpl.getD (fresh e f)).points.isEmpty then some (vpl.getD (fresh e f)) else
        some { vpl.getD (fresh e f) with styles := (vpl.getD (fresh e f)).styles ++
          [settingOf e f (vpl.getD (fresh e f)).before s] }) := by
  unfold makeSurfaceLight
  rw [he, if_neg (by simp), if_neg ha]
  simp only
  change (if vmax (tint e f s) = 0 then _ else _) = _
  split
  · rfl
  · cases vpl <;> rfl

theorem make_none (e : Env K) (f : Surface K) (vpl : Option (Vpl K)) (s : Source K)
    (h : f.emissive = false ∨ f.area < 1) : makeSurfaceLight e f vpl s = vpl := by
  unfold makeSurfaceLight
  cases hf : f.emissive with
  | false => simp
  | true =>
    rcases h with h | h
    · rw [hf] at h; cases h
    · rw [if_neg (by simp), if_pos h]

theorem source_eq (t : Tmpl K) : t.source = ⟨t.color, decide (t.spot ≠ some 0), decide (t.sky ≠ 0), t.style, t.light⟩ := by
  have h1 : (match t.spot with | none => true | some n => n != 0) = decide (t.spot ≠ some 0) := by
    cases t.spot with
    | none => rfl
    | some n => by_cases h : n = 0 <;> simp [h]
  have h2 : (t.sky != 0) = decide (t.sky ≠ 0) := by by_cases h : t.sky = 0 <;> simp [h]
  show (⟨t.color, (match t.spot with | none => true | some n => n != 0), t.sky != 0, t.style, t.light⟩ : Source K) = _
  rw [h1, h2]

theorem surfaceLights_eq (e : Env K) (f : Surface K) (ts : List (Tmpl K)) :
    surfaceLights e f ts = (sources f ts).foldl (makeSurfaceLight e f) none := by
  have key : ∀ (ts : List (Tmpl K)) (v : Option (Vpl K)),
      ts.foldl (fun v t => if t.fits then makeSurfaceLight e f v t.source else v) v
        = ((ts.filter (·.fits)).map Tmpl.source).foldl (makeSurfaceLight e f) v := by
    intro ts
    induction ts with
    | nil => intro v; rfl
    | cons t ts ih =>
      intro v
      rw [List.foldl_cons, ih]
      cases h : t.fits with
      | false => rw [List.filter_cons_of_neg (p := fun t : Tmpl K => t.fits) (by simp [h])]; simp
      | true => rw [List.filter_cons_of_pos (p := fun t : Tmpl K => t.fits) h]; simp
  unfold surfaceLights sources
  simp only [← source_eq]
  rw [key, List.foldl_append]
  congr 1
  cases f.own with
  | none => rfl
  | some o =>
    obtain ⟨flags, value⟩ := o
    simp only
    by_cases h0 : flags.testBit 0 = true
    · by_cases h1 : value = 0
      · rw [if_pos (Or.inr h1), if_neg (by simp [h1])]; rfl
      · rw [if_neg (by simp [h0, h1]), if_pos ⟨h0, h1⟩]; rfl
    · rw [if_pos (Or.inl (by simpa using h0)), if_neg (by simp [h0])]; rfl

open Classical in
theorem fold_eq (e : Env K) (f : Surface K) (he : f.emissive = true) (ha : ¬ f.area < 1) (ss : List (Source K))
    (l : Vpl K) :
    ss.foldl (makeSurfaceLight e f) (some l) = some (if l.points = [] then l else
      { l with styles := l.styles ++ (ss.filter fun s => decide (Bright e f s)).map (settingOf e f l.before) }) := by
  induction ss generalizing l with
  | nil => simp
  | cons s ss ih =>
    rw [List.foldl_cons, make_eq e f _ s he ha]
    by_cases hb : vmax (tint e f s) = 0
    · rw [if_pos hb, ih, List.filter_cons_of_neg (by rw [bright_iff]; simpa using hb)]
    · rw [if_neg hb, List.filter_cons_of_pos (by rw [bright_iff]; simpa using hb), List.map_cons]
      simp only [Option.getD_some]
      by_cases hp : l.points = []
      · rw [if_pos (by simp [hp]), ih, if_pos hp, if_pos hp]
      · rw [if_neg (by simpa using hp), ih, if_neg hp, if_neg hp]
        simp

open Classical in
/-- Which faces become surface lights, with which points, and one setting for each source that is not dark, in order. -/
theorem surface_settings (e : Env K) (f : Surface K) (ts : List (Tmpl K)) :
    let bright := (sources f ts).filter fun s => decide (Bright e f s)
    ((f.emissive = false ∨ f.area < 1 ∨ bright = []) → surfaceLights e f ts = none) ∧
    (f.emissive = true → 1 ≤ f.area → bright ≠ [] →
      ∃ l, surfaceLights e f ts = some l ∧ l.normal = f.normal ∧ (l.pos, l.points, l.before) = surfacePoints e f ∧
        (l.points = [] → l.styles = []) ∧ (l.points ≠ [] → List.Forall₂ (Says f) bright l.styles)) := by
  simp only
  rw [surfaceLights_eq]
  constructor
  · intro h
    generalize sources f ts = ss at *
    induction ss with
    | nil => rfl
    | cons s ss ih =>
      rw [List.foldl_cons]
      by_cases h' : f.emissive = false ∨ f.area < 1
      · rw [make_none e f none s h']
        exact ih (h'.elim Or.inl fun h => Or.inr (Or.inl h))
      · push Not at h'
        have he : f.emissive = true := by simpa using h'.1
        rcases h with h | h | h
        · exact absurd h h'.1
        · exact absurd h (not_lt.2 h'.2)
        · have hs : ¬ Bright e f s := by
            intro hb
            rw [List.filter_cons_of_pos (by simpa using hb)] at h
            cases h
          rw [make_eq e f none s he (not_lt.2 h'.2), if_pos (by rw [bright_iff] at hs; simpa using hs)]
          rw [List.filter_cons_of_neg (by simpa using hs)] at h
          exact ih (Or.inr (Or.inr h))
  · intro he ha hne
    have ha' : ¬ f.area < 1 := not_lt.2 ha
    have hsays : ∀ n s, Says f s (settingOf e f n s) := by
      intro n s
      constructor
      · rfl
      · intro t ht; simp [settingOf, ht]
      · intro h0 t ht; simp [settingOf, h0, ht]
      · intro h0 h1; simp [settingOf, h0, h1]
      · simp [settingOf]
      · intro r hr; simp [settingOf, hr]
      · intro hr; simp [settingOf, hr]
    have key : ∀ ss : List (Source K), ss.filter (fun s => decide (Bright e f s)) ≠ [] →
        ss.foldl (makeSurfaceLight e f) none = some (if (fresh e f).points = [] then fresh e f else
          { fresh e f with styles := (ss.filter fun s => decide (Bright e f s)).map (settingOf e f (fresh e f).before) }) := by
      intro ss
      induction ss with
      | nil => intro h; exact absurd rfl h
      | cons s ss ih =>
        intro h
        rw [List.foldl_cons, make_eq e f none s he ha']
        by_cases hb : vmax (tint e f s) = 0
        · have hs : ¬ Bright e f s := by rw [bright_iff]; simpa using hb
          rw [List.filter_cons_of_neg (by simpa using hs)] at h ⊢
          rw [if_pos hb]
          exact ih h
        · have hs : Bright e f s := by rw [bright_iff]; exact hb
          rw [if_neg hb, List.filter_cons_of_pos (by simpa using hs)]
          simp only [Option.getD_none]
          by_cases hp : (fresh e f).points = []
          · rw [if_pos (by simp [hp]), fold_eq e f he ha', if_pos hp, if_pos hp]
          · rw [if_neg (by simpa using hp), fold_eq e f he ha', if_neg hp, if_neg hp]
            rfl
    rw [key _ hne]
    refine ⟨_, rfl, ?_, ?_, ?_, ?_⟩
    · split <;> rfl
    · split <;> rfl
    · intro h
      split
      · rfl
      · next hp =>
        rw [if_neg hp] at h
        exact absurd h hp
    · intro h
      have hp : ¬ (fresh e f).points = [] := by
        intro hp
        rw [if_pos hp] at h
        exact h hp
      rw [if_neg hp]
      simp only
      rw [List.forall₂_map_right_iff]
      exact List.forall₂_same.2 fun s _ => hsays _ s

open Classical in
/-- The strength of the settings: before points in the void are dropped, all points together give off the colour times the
value over the area of the face, if its brightest component is over 1; below that too little, as it is scaled by that
component again. -/
theorem surface_energy_partial [IsStrictOrderedRing K] (e : Env K) (f : Surface K) (ts : List (Tmpl K)) (l : Vpl K)
    (h : surfaceLights e f ts = some l) (hb : 0 < l.before) :
    ∃ ss, ss.Sublist (sources f ts) ∧ List.Forall₂ (fun s st => ∀ w b, Wanted e f s w → Brightest w b →
      (b > 1 → Strong l.before f.area 1 w st) ∧ (b ≤ 1 → Strong l.before f.area b w st)) ss l.styles := by
  have key : ∀ s, ∀ w b, Wanted e f s w → Brightest w b →
      (b > 1 → Strong l.before f.area 1 w (settingOf e f l.before s)) ∧
      (b ≤ 1 → Strong l.before f.area b w (settingOf e f l.before s)) := by
    intro s w b hw hb'
    rw [wanted_iff] at hw
    rw [brightest_iff] at hb'
    subst hw hb'
    exact given_eq l.before hb f.area (tint e f s) _ rfl rfl
  rw [surfaceLights_eq] at h
  by_cases h' : f.emissive = false ∨ f.area < 1
  · exfalso
    have : ∀ ss : List (Source K), ss.foldl (makeSurfaceLight e f) none = none := by
      intro ss
      induction ss with
      | nil => rfl
      | cons s ss ih => rw [List.foldl_cons, make_none e f none s h', ih]
    rw [this] at h
    cases h
  · push Not at h'
    have he : f.emissive = true := by simpa using h'.1
    have ha : ¬ f.area < 1 := not_lt.2 h'.2
    have main : ∀ (ss : List (Source K)), ss.foldl (makeSurfaceLight e f) none = some l →
        ∃ ss' : List (Source K), ss'.Sublist ss ∧ l.styles = ss'.map (settingOf e f l.before) := by
      intro ss
      induction ss with
      | nil => intro h; cases h
      | cons s ss ih =>
        intro h
        rw [List.foldl_cons, make_eq e f none s he ha] at h
        by_cases hb : vmax (tint e f s) = 0
        · rw [if_pos hb] at h
          obtain ⟨ss', h1, h2⟩ := ih h
          exact ⟨ss', h1.cons _, h2⟩
        · rw [if_neg hb] at h
          simp only [Option.getD_none] at h
          by_cases hp : (fresh e f).points = []
          · rw [if_pos (by simp [hp]), fold_eq e f he ha, if_pos hp] at h
            cases h
            exact ⟨[], List.nil_sublist _, rfl⟩
          · rw [if_neg (by simpa using hp), fold_eq e f he ha, if_neg hp] at h
            cases h
            exact ⟨s :: ss.filter fun s => decide (Bright e f s), List.Sublist.cons₂ _ List.filter_sublist, by
              simp [fresh]⟩
    obtain ⟨ss', h1, h2⟩ := main _ h
    refine ⟨ss', h1, ?_⟩
    rw [h2, List.forall₂_map_right_iff]
    exact List.forall₂_same.2 fun s _ => key s

/-- Which faces light takes for surface lights. -/
theorem isLit_iff (f : Surface K) (ts : List (Tmpl K)) :
    isLit f ts = true ↔ (∃ flags value, f.own = some (flags, value) ∧ flags.testBit 0 = true ∧ 0 < value) ∨ ∃ t ∈ ts, t.fits = true := by
  unfold isLit
  cases ho : f.own with
  | none => simp
  | some o =>
    obtain ⟨flags, value⟩ := o
    simp [and_assoc]

/-- A face with settings is one that light takes for a surface light, unless it has a negative value in Quake II. -/
theorem settings_lit (e : Env K) (f : Surface K) (ts : List (Tmpl K)) (l : Vpl K) (h : surfaceLights e f ts = some l) :
    isLit f ts = true ∨ ∃ flags value, f.own = some (flags, value) ∧ flags.testBit 0 = true ∧ value < 0 := by
  rw [surfaceLights_eq] at h
  by_cases hs : sources f ts = []
  · rw [hs] at h; cases h
  · unfold sources at hs
    unfold isLit
    by_cases ht : ts.any (·.fits) = true
    · left
      rw [ht, Bool.or_true]
    · have hf : (ts.filter (·.fits)) = [] := by
        rw [List.filter_eq_nil_iff]
        intro t h1 h2
        exact ht (List.any_eq_true.2 ⟨t, h1, h2⟩)
      rw [hf, List.map_nil, List.append_nil] at hs
      cases ho : f.own with
      | none => rw [ho] at hs; exact absurd rfl hs
      | some o =>
        obtain ⟨flags, value⟩ := o
        rw [ho] at hs
        simp only at hs
        by_cases hc : flags.testBit 0 = true ∧ value ≠ 0
        · by_cases hv : value > 0
          · left
            simp [hc.1, hv]
          · right
            exact ⟨flags, value, rfl, hc.1, lt_of_le_of_ne (not_lt.1 hv) hc.2⟩
        · rw [if_neg hc] at hs
          exact absurd rfl hs

end Verif.Radiosity
