import Verif.OnlyEnts.Spec
import Mathlib.Tactic.SplitIfs
import Mathlib.Data.List.Forall2

/-!
Lemmas for C220 and C221.
-/

namespace Verif.OnlyEnts

theorem find_set (d : Dict) (k v key : Str) : find (set d k v) key = if k = key then some v else find d key := by
  induction d with
  | nil =>
    by_cases h : k = key
    · simp [set, find, h]
    · simp [set, find, h]
  | cons a d ih =>
    obtain ⟨ka, va⟩ := a
    by_cases h : k = ka
    · subst h
      by_cases hk : k = key
      · simp [set, find, hk]
      · simp [set, find, hk]
    · simp only [set, if_neg h]
      by_cases hk : ka = key
      · subst hk
        simp [find, h]
      · have : find ((ka, va) :: set d k v) key = find (set d k v) key := by simp [find, hk]
        rw [this, ih]
        simp [find, hk]

theorem find_set_ne {d : Dict} {k v key : Str} (h : k ≠ key) : find (set d k v) key = find d key := by
  rw [find_set, if_neg h]

theorem get_set_ne {d : Dict} {k v key : Str} (h : k ≠ key) : get (set d k v) key = get d key := by
  rw [get, find_set_ne h, get]

theorem get_set_eq (d : Dict) (k v : Str) : get (set d k v) k = v := by
  rw [get, find_set, if_pos rfl]; rfl

theorem origin_ne_model : kOrigin ≠ kModel := by decide +kernel
theorem class_ne_model : kClass ≠ kModel := by decide +kernel
theorem origin_ne_class : kOrigin ≠ kClass := by decide +kernel
theorem model_ne_class : kModel ≠ kClass := by decide +kernel

/-- Everything but the origin is kept. -/
theorem find_originKeys (w : Bool) (d : Dict) (bs : List Brush) (key : Str) (hk : kOrigin ≠ key) :
    find (originKeys w d bs) key = find d key := by
  induction bs generalizing d with
  | nil => rfl
  | cons b t ih =>
    rw [originKeys]
    cases b.origin with
    | none => exact ih d
    | some c =>
      show find (originKeys w (if w then d else if (find d kOrigin).isSome then d else set d kOrigin c) t) key = _
      rw [ih]
      split_ifs
      · rfl
      · rfl
      · exact find_set_ne hk

theorem find_fixRotate (env : Env) (all : List Entity) (e : Entity) (key : Str) (hk : kOrigin ≠ key) :
    find (fixRotate env all e).keys key = find e.keys key := find_set_ne hk

theorem find_rescaled (env : Env) (e : Entity) (key : Str) (hk : kOrigin ≠ key) : find (rescaled env e).keys key = find e.keys key := by
  unfold rescaled
  rcases env.scaled with _ | f
  · rfl
  · dsimp only
    rcases find e.keys kOrigin with _ | o
    · rfl
    · dsimp only
      rcases f o with _ | o'
      · rfl
      · exact find_set_ne hk

theorem brushes_rescaled (env : Env) (e : Entity) : (rescaled env e).brushes = e.brushes := by
  unfold rescaled
  rcases env.scaled with _ | f
  · rfl
  · dsimp only
    rcases find e.keys kOrigin with _ | o
    · rfl
    · dsimp only
      rcases f o with _ | o' <;> rfl

theorem find_processEntity (env : Env) (w : Bool) (b a : List Entity) (e : Entity) (key : Str) (hk : kOrigin ≠ key) :
    find (processEntity env w b a e).keys key = find e.keys key := by
  unfold processEntity
  rw [find_rescaled _ _ _ hk]
  unfold rotated
  split_ifs
  · rw [find_fixRotate _ _ _ _ hk]; exact find_originKeys _ _ _ _ hk
  · exact find_originKeys _ _ _ _ hk

theorem brushes_processEntity (env : Env) (w : Bool) (b a : List Entity) (e : Entity) :
    (processEntity env w b a e).brushes = e.brushes.filter (·.origin = none) := by
  unfold processEntity
  rw [brushes_rescaled]
  unfold rotated
  split_ifs <;> rfl

/-- What the second pass reads of an entity. -/
def view (e : Entity) : List Brush × Str × Option Str := (e.brushes, get e.keys kClass, find e.keys kModel)

def viewAfter (e : Entity) : List Brush × Str × Option Str :=
  (e.brushes.filter (·.origin = none), get e.keys kClass, find e.keys kModel)

theorem view_processAll (env : Env) (before es : List Entity) :
    (processAll env before es).map view = before.map view ++ es.map viewAfter := by
  induction es generalizing before with
  | nil => simp [processAll]
  | cons e t ih =>
    have : view (processEntity env before.isEmpty before t e) = viewAfter e := by
      unfold view viewAfter get
      rw [brushes_processEntity, find_processEntity _ _ _ _ _ _ origin_ne_class, find_processEntity _ _ _ _ _ _ origin_ne_model]
    rw [processAll, ih, List.map_append, List.map_cons, List.map_nil, List.map_cons, this, List.append_assoc]
    rfl

/-- Which entities of the second pass get a number. -/
def flag (env : Env) (v : List Brush × Str × Option Str) : Bool × Option Str :=
  (decide (v.1 ≠ []) && !merged v.2.1 && !(env.notrigger && v.1.head?.any (·.trigger)), v.2.2)

theorem find_lm (env : Env) (d : Dict) :
    find (match env.lmscale with
        | some v => if (find d "_lmscale".toList).isSome then d else set d "_lmscale".toList v
        | none => d) kModel = find d kModel := by
  rcases env.lmscale with _ | v
  · rfl
  · dsimp only
    split_ifs
    · rfl
    · exact find_set_ne (by decide +kernel)

theorem models_number (env : Env) (n : Nat) (es : List Entity) :
    Spec.modelKeys (number env n es) = Spec.models n (es.map fun e => flag env (view e)) := by
  induction es generalizing n with
  | nil => rfl
  | cons e t ih =>
    rw [List.map_cons, number]
    by_cases hb : e.brushes = []
    · have hf : flag env (view e) = (false, find e.keys kModel) := by simp [flag, view, hb]
      rw [if_pos hb, hf, Spec.models, ← ih]; rfl
    rw [if_neg hb]
    by_cases hm : merged (get e.keys kClass) = true
    · have hf : flag env (view e) = (false, find e.keys kModel) := by simp [flag, view, hm]
      rw [if_pos hm, hf, Spec.models, ← ih]; rfl
    rw [if_neg hm]
    dsimp only
    have hm' : merged (get e.keys kClass) = false := by simpa using hm
    by_cases hd : discarded env e = true
    · have hf : flag env (view e) = (false, find e.keys kModel) := by
        unfold discarded at hd
        simp only [flag, view, hd, Bool.not_true, Bool.and_false]
      rw [if_pos hd, hf, Spec.models, ← ih]
      show _ :: _ = _ :: _
      congr 1
      show find (set (set _ _ _) _ _) kModel = _
      rw [find_set_ne (by decide +kernel), find_set_ne (by decide +kernel)]
      exact find_lm env e.keys
    · have hd' : discarded env e = false := by simpa using hd
      have hf : flag env (view e) = (true, find e.keys kModel) := by
        unfold discarded at hd'
        simp [flag, view, hd', hm', hb]
      rw [if_neg hd, hf, Spec.models, ← ih]
      show _ :: _ = _ :: _
      congr 1
      refine (find_lm env (set e.keys kModel (star n))).trans ?_
      rw [find_set, if_pos rfl]; rfl

/-- What `-onlyents` sees of an entity. -/
def onlyFlag (e : Entity) : Bool × Option Str :=
  if ieq (get e.keys kClass) external = true then (!merged (get e.keys kNewClass), find e.keys kModel)
  else (decide (e.brushes ≠ []) && !merged (get e.keys kClass), find e.keys kModel)

theorem onlyEntity_ok {env : Env} {n : Nat} {b a : List Entity} {e : Entity} {r : Entity × Nat}
    (h : onlyEntity env n b a e = .ok r) :
    find r.1.keys kModel = (if (onlyFlag e).1 = true then some (star n) else find e.keys kModel) ∧
    r.2 = if (onlyFlag e).1 = true then n + 1 else n := by
  unfold onlyEntity at h
  dsimp only at h
  by_cases hx : ieq (get e.keys kClass) external = true
  · have hcls : get (set (set e.keys kClass (get e.keys kNewClass)) kOrigin "0 0 0".toList) kClass = get e.keys kNewClass := by
      rw [get_set_ne origin_ne_class, get_set_eq]
    have hmod : find (set (set e.keys kClass (get e.keys kNewClass)) kOrigin "0 0 0".toList) kModel = find e.keys kModel := by
      rw [find_set_ne origin_ne_model, find_set_ne class_ne_model]
    rw [if_pos hx, hx] at h
    rw [if_neg (fun c => Bool.noConfusion c.2)] at h
    dsimp only at h
    rw [hcls] at h
    by_cases h1 : ieq (get e.keys kNewClass) external = true
    · rw [if_pos h1] at h; cases h
    rw [if_neg h1] at h
    by_cases h2 : merged (get e.keys kNewClass) = true
    · rw [if_pos h2] at h
      cases h
      simp only [onlyFlag, if_pos hx, h2]
      exact ⟨hmod, rfl⟩
    · rw [if_neg h2] at h
      have h2' : merged (get e.keys kNewClass) = false := by simpa using h2
      injection h with h; subst h
      simp only [onlyFlag, if_pos hx, h2', Bool.not_false, if_true]
      refine ⟨?_, trivial⟩
      split_ifs
      · rw [find_fixRotate _ _ _ _ origin_ne_model, find_set, if_pos rfl]
      · rw [find_set, if_pos rfl]
  · have hx' : ieq (get e.keys kClass) external = false := by simpa using hx
    rw [if_neg hx] at h
    by_cases h0 : e.brushes = []
    · rw [if_pos ⟨h0, hx'⟩] at h
      cases h
      simp [onlyFlag, if_neg hx, h0]
    rw [if_neg (fun c => h0 c.1), if_neg hx] at h
    by_cases h2 : merged (get e.keys kClass) = true
    · rw [if_pos h2] at h
      cases h
      simp [onlyFlag, if_neg hx, h2]
    · rw [if_neg h2] at h
      have h2' : merged (get e.keys kClass) = false := by simpa using h2
      injection h with h; subst h
      have hf : (onlyFlag e).1 = true := by simp [onlyFlag, if_neg hx, h2', h0]
      rw [if_pos hf, if_pos hf]
      refine ⟨?_, rfl⟩
      dsimp only
      split_ifs
      · rw [find_fixRotate _ _ _ _ origin_ne_model, find_set, if_pos rfl]
      · rw [find_set, if_pos rfl]

theorem models_onlyAll {env : Env} {n : Nat} {before es r : List Entity} (h : onlyAll env n before es = .ok r) :
    Spec.modelKeys r = Spec.modelKeys before ++ Spec.models n (es.map onlyFlag) := by
  induction es generalizing before n with
  | nil =>
    cases h
    simp [Spec.models]
  | cons e t ih =>
    rw [onlyAll] at h
    obtain ⟨x, h1, h2⟩ := Outcome.bind_eq_ok.1 h
    obtain ⟨hm, hn⟩ := onlyEntity_ok h1
    rw [ih h2, List.map_cons]
    have hfl : (onlyFlag e).2 = find e.keys kModel := by unfold onlyFlag; split_ifs <;> rfl
    have hb : Spec.modelKeys (before ++ [x.1]) = Spec.modelKeys before ++ [find x.1.keys kModel] := by
      unfold Spec.modelKeys; rw [List.map_append]; rfl
    rw [hb, List.append_assoc, hm, hn]
    congr 1
    rcases hf : onlyFlag e with ⟨f, m⟩
    rw [hf] at hfl
    cases f with
    | true => simp only [if_true, Spec.models]; rfl
    | false =>
      simp only [Bool.false_eq_true, if_false, Spec.models]
      rw [← hfl]; rfl

theorem externals_ok {env : Env} {es r : List Entity} (h : externals env es = .ok r) :
    List.Forall₂ (fun e e' => processExternal env e = .ok e') es r := by
  induction es generalizing r with
  | nil => cases h; exact List.Forall₂.nil
  | cons e t ih =>
    rw [externals] at h
    obtain ⟨x, h1, h2⟩ := Outcome.bind_eq_ok.1 h
    obtain ⟨y, h3, h4⟩ := Outcome.bind_eq_ok.1 h2
    cases h4
    exact List.Forall₂.cons h1 (ih h3)

theorem processExternal_ok {env : Env} {e e' : Entity} (h : processExternal env e = .ok e') :
    (ieq (get e.keys kClass) external = false ∧ e' = e) ∨
    (ieq (get e.keys kClass) external = true ∧ e.brushes = [] ∧ ieq (get e.keys kNewClass) external = false ∧
      env.external (get e.keys "_external_map".toList) ≠ [] ∧
      e' = ⟨set (set e.keys kClass (get e.keys kNewClass)) kOrigin "0 0 0".toList, env.external (get e.keys "_external_map".toList)⟩) := by
  unfold processExternal at h
  split_ifs at h with h1 h2 h3 h4 h5 h6
  · cases h; exact Or.inl ⟨h1, rfl⟩
  · right
    cases h
    exact ⟨by simpa using h1, by simpa using h4, by simpa using h6, h5, rfl⟩

end Verif.OnlyEnts
