import Verif.Phong.SpecLemmas

/-!
Property C174: the phong angles of models.
-/

namespace Verif.Phong

open Verif.Geom

/-- The model has a face with the texinfo. -/
def Uses (faces : List (Face ℝ)) (m : Model ℝ) (t : Nat) : Prop :=
  ∃ k g, m.first ≤ k ∧ k < m.first + m.num ∧ faces[k]? = some g ∧ g.tex = t

/-- The angle a model asks for: `_phong_angle`, or else 89 degrees if `_phong` is set. -/
def AsksFor (m : Model ℝ) (a : ℝ) : Prop :=
  (m.phongAngle ≠ 0 → a = m.phongAngle) ∧
    (m.phongAngle = 0 → (m.phong > 0 → a = 89) ∧ (m.phong ≤ 0 → a = 0))

/-- The angle that is applied: the one asked for, rounded to a whole number from 0 to 255. -/
def Applies (m : Model ℝ) (n : Nat) : Prop :=
  ∀ a, AsksFor m a → (round a ≤ 0 → n = 0) ∧ (255 ≤ round a → n = 255) ∧
    (0 ≤ round a → round a ≤ 255 → (n : Int) = round a)

theorem asksFor_iff (m : Model ℝ) (a : ℝ) : AsksFor m a ↔ a = m.resolved := by
  unfold AsksFor Model.resolved defaultAngle
  by_cases h : m.phongAngle = 0
  · by_cases h2 : m.phong > 0
    · simp [h, h2]
    · have := not_lt.1 h2
      simp [h, h2, this]
  · simp [h]

theorem applies_iff (m : Model ℝ) (n : Nat) : Applies m n ↔ n = m.byte realOps := by
  unfold Applies
  simp only [asksFor_iff, forall_eq]
  show _ ↔ n = (max 0 (min 255 (round m.resolved))).toNat
  generalize round m.resolved = r
  omega

theorem uses_iff (faces : List (Face ℝ)) (m : Model ℝ) (t : Nat) :
    Uses faces m t ↔ ∃ g ∈ (faces.drop m.first).take m.num, g.tex = t := by
  constructor
  · rintro ⟨k, g, h1, h2, hg, ht⟩
    refine ⟨g, ?_, ht⟩
    rw [List.mem_iff_getElem?]
    refine ⟨k - m.first, ?_⟩
    rw [List.getElem?_take, if_pos (by omega), List.getElem?_drop, ← hg]
    congr 1
    omega
  · rintro ⟨g, hg, ht⟩
    obtain ⟨k, hk⟩ := List.mem_iff_getElem?.1 hg
    rw [List.getElem?_take] at hk
    split at hk
    · rw [List.getElem?_drop] at hk
      exact ⟨m.first + k, g, by omega, by omega, hk, ht⟩
    · simp at hk

theorem foldl_update (a : ℝ) (fs : List (Face ℝ)) (tex : Nat → Tex ℝ) (t : Nat) :
    fs.foldl (fun t f => Function.update t f.tex { t f.tex with angle := a }) tex t
      = if ∃ g ∈ fs, g.tex = t then { tex t with angle := a } else tex t := by
  induction fs generalizing tex with
  | nil => simp
  | cons f fs ih =>
    rw [List.foldl_cons, ih]
    by_cases hf : f.tex = t
    · subst hf
      rw [if_pos (c := ∃ g ∈ f :: fs, g.tex = f.tex) ⟨f, List.mem_cons_self, rfl⟩]
      simp
    · have : (∃ g ∈ f :: fs, g.tex = t) ↔ ∃ g ∈ fs, g.tex = t := by
        simp [hf]
      rw [Function.update_of_ne (Ne.symm hf)]
      by_cases h : ∃ g ∈ fs, g.tex = t
      · rw [if_pos h, if_pos (this.2 h)]
      · rw [if_neg h, if_neg (fun h' => h (this.1 h'))]

theorem apply_eq (faces : List (Face ℝ)) (m : Model ℝ) (tex : Nat → Tex ℝ) (t : Nat) [Decidable (Uses faces m t)] :
    m.apply realOps faces tex t
      = if m.byte realOps ≠ 0 ∧ Uses faces m t then { tex t with angle := (m.byte realOps : ℝ) } else tex t := by
  unfold Model.apply
  by_cases h : m.byte realOps = 0
  · simp [h]
  · rw [if_neg h, foldl_update]
    by_cases hu : Uses faces m t
    · rw [if_pos ((uses_iff _ _ _).1 hu), if_pos ⟨h, hu⟩]
    · rw [if_neg (fun h' => hu ((uses_iff _ _ _).2 h')), if_neg (fun h' => hu h'.2)]

/-- C174: a texinfo that no model with an angle uses keeps the angle the compiler gave it. -/
theorem angle_kept_partial (faces : List (Face ℝ)) (ms : List (Model ℝ)) (tex : Nat → Tex ℝ) (t : Nat)
    (h : ∀ m ∈ ms, Applies m 0 ∨ ¬Uses faces m t) :
    applyModels realOps faces ms tex t = tex t := by
  classical
  unfold applyModels
  induction ms generalizing tex with
  | nil => rfl
  | cons m ms ih =>
    rw [List.foldl_cons, ih _ (fun m' hm => h m' (List.mem_cons_of_mem _ hm)), apply_eq, if_neg]
    rintro ⟨h1, h2⟩
    rcases h m List.mem_cons_self with h3 | h3
    · exact h1 ((applies_iff _ _).1 h3).symm
    · exact h3 h2

/-- C174: a texinfo gets the angle of the last model that has one and uses the texinfo; nothing else about it changes.
Missing: that it is the angle of the face's own model, see `angle_of_another_model`. -/
theorem angle_of_last_partial (faces : List (Face ℝ)) (pre post : List (Model ℝ)) (m : Model ℝ) (tex : Nat → Tex ℝ)
    (t n : Nat) (hn : Applies m n) (h0 : n ≠ 0) (hu : Uses faces m t)
    (hpost : ∀ m' ∈ post, Applies m' 0 ∨ ¬Uses faces m' t) :
    applyModels realOps faces (pre ++ m :: post) tex t = { tex t with angle := (n : ℝ) } := by
  classical
  have hpre : ∀ tex : Nat → Tex ℝ, ∃ a, applyModels realOps faces pre tex t = { tex t with angle := a } := by
    unfold applyModels
    intro tex
    induction pre generalizing tex with
    | nil => exact ⟨(tex t).angle, rfl⟩
    | cons m' pre ih =>
      rw [List.foldl_cons]
      obtain ⟨a, ha⟩ := ih (m'.apply realOps faces tex)
      rw [ha, apply_eq]
      split
      · exact ⟨a, rfl⟩
      · exact ⟨a, rfl⟩
  have e : applyModels realOps faces (pre ++ m :: post) tex
      = applyModels realOps faces post (m.apply realOps faces (applyModels realOps faces pre tex)) := by
    unfold applyModels
    rw [List.foldl_append, List.foldl_cons]
  rw [e, angle_kept_partial _ _ _ _ hpost, apply_eq]
  have hb := (applies_iff _ _).1 hn
  rw [if_pos ⟨hb ▸ h0, hu⟩, ← hb]
  obtain ⟨a, ha⟩ := hpre tex
  rw [ha]

/-- Two models; their faces share the texinfo 0, and the second has a texinfo of its own. -/
def shared : List (Face ℝ) :=
  [⟨0, [0, 1, 2], ⟨0, 0, 1⟩, 0, 0, false⟩, ⟨0, [3, 4, 5], ⟨1, 0, 0⟩, 0, 1, false⟩]

/-- C174: a model that asks for no phong shading gets it when another model uses the same texinfo. -/
theorem angle_of_another_model : ∃ (faces : List (Face ℝ)) (ms : List (Model ℝ)) (m : Model ℝ) (tex : Nat → Tex ℝ)
    (t : Nat), m ∈ ms ∧ Uses faces m t ∧ AsksFor m 0 ∧ (tex t).angle = 0 ∧
      (applyModels realOps faces ms tex t).angle = 60 := by
  classical
  have ha : Applies (⟨60, 0, 1, 1⟩ : Model ℝ) 60 := by
    intro a h
    have : a = 60 := h.1 (by norm_num)
    subst this
    have : round (60 : ℝ) = 60 := by exact_mod_cast round_intCast (α := ℝ) 60
    rw [this]
    omega
  refine ⟨shared, [⟨0, 0, 0, 1⟩, ⟨60, 0, 1, 1⟩], ⟨0, 0, 0, 1⟩, fun _ => ⟨false, 0, 0, 0, 0, 0⟩, 0, by simp,
    ⟨0, _, by simp, by simp, rfl, rfl⟩, (asksFor_iff _ _).2 (by norm_num [Model.resolved]), rfl, ?_⟩
  have := angle_of_last_partial shared [⟨0, 0, 0, 1⟩] [] ⟨60, 0, 1, 1⟩ (fun _ => ⟨false, 0, 0, 0, 0, 0⟩) 0 60 ha
    (by norm_num) ⟨1, _, by simp, by simp, rfl, rfl⟩ (by simp)
  rw [List.singleton_append] at this
  rw [this]
  norm_num

/-- C174: an angle given to the world replaces the angle the compiler took from a group of detail brushes in it. -/
theorem own_angle_lost : ∃ (faces : List (Face ℝ)) (world : Model ℝ) (tex : Nat → Tex ℝ) (t : Nat),
    Uses faces world t ∧ (tex t).angle = 20 ∧ (applyModels realOps faces [world] tex t).angle = 60 := by
  have ha : Applies (⟨60, 0, 0, 2⟩ : Model ℝ) 60 := by
    intro a h
    have : a = 60 := h.1 (by norm_num)
    subst this
    have : round (60 : ℝ) = 60 := by exact_mod_cast round_intCast (α := ℝ) 60
    rw [this]
    omega
  have hu : Uses shared ⟨60, 0, 0, 2⟩ 0 := ⟨0, _, by simp, by simp, rfl, rfl⟩
  refine ⟨shared, ⟨60, 0, 0, 2⟩, fun _ => ⟨false, 20, 0, 0, 0, 0⟩, 0, hu, rfl, ?_⟩
  have := angle_of_last_partial shared [] [] ⟨60, 0, 0, 2⟩ (fun _ => ⟨false, 20, 0, 0, 0, 0⟩) 0 60 ha (by norm_num) hu
    (by simp)
  rw [List.nil_append] at this
  rw [this]
  norm_num

/-- The hypotheses of `angle_kept_partial` and `angle_of_last_partial` can be met: see the two theorems above for the
second; a model without an angle keeps those of the compiler. -/
example : Applies (⟨0, 0, 0, 2⟩ : Model ℝ) 0 ∧ Uses shared ⟨0, 0, 0, 2⟩ 0 := by
  refine ⟨?_, ⟨0, _, by simp, by simp, rfl, rfl⟩⟩
  intro a h
  have : a = 0 := (h.2 rfl).2 le_rfl
  subst this
  rw [round_zero]
  omega

end Verif.Phong
