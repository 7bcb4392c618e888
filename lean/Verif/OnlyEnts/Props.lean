import Verif.OnlyEnts.Lemmas

/-!
C220: the models of `-onlyents` are those of a full compile. C221: so are all entities it writes.
-/

namespace Verif.OnlyEnts

theorem flag_brushes {env : Env} {v : List Brush × Str × Option Str} (hn : env.notrigger = false) (h : v.1 ≠ []) :
    flag env v = (!merged v.2.1, v.2.2) := by
  simp [flag, hn, h]

theorem onlyFlag_eq {env : Env} {e e' : Entity} (h : processExternal env e = .ok e') (hn : env.notrigger = false)
    (hs : e.brushes ≠ [] → ∃ b ∈ e.brushes, b.origin = none)
    (hx : ieq (get e.keys kClass) external = true → ∃ b ∈ env.external (get e.keys "_external_map".toList), b.origin = none) :
    onlyFlag e = flag env (viewAfter e') := by
  have key : ∀ bs : List Brush, (∃ b ∈ bs, b.origin = none) → bs.filter (·.origin = none) ≠ [] := by
    rintro bs ⟨b, hb, ho⟩ hc
    have : b ∈ bs.filter (·.origin = none) := List.mem_filter.2 ⟨hb, by simpa using ho⟩
    rw [hc] at this; cases this
  rcases processExternal_ok h with ⟨h1, rfl⟩ | ⟨h1, _, _, h4, rfl⟩
  · have h1' : ¬ ieq (get e'.keys kClass) external = true := by simp [h1]
    rw [onlyFlag, if_neg h1', flag, hn]
    simp only [viewAfter, Bool.false_and, Bool.not_false, Bool.and_true]
    by_cases hb : e'.brushes = []
    · simp [hb]
    · have := key _ (hs hb)
      simp [hb, this]
  · rw [onlyFlag, if_pos h1, flag_brushes hn (key _ (hx h1))]
    show _ = (!merged (get (set (set _ _ _) _ _) kClass), find (set (set _ _ _) _ _) kModel)
    rw [get_set_ne origin_ne_class, get_set_eq, find_set_ne origin_ne_model, find_set_ne class_ne_model]

theorem full_ok {env : Env} {w : Entity} {t r : List Entity} (h : full env (w :: t) = .ok r) :
    ∃ w' t', processExternal env w = .ok w' ∧ externals env t = .ok t' ∧
      find (r.head?.getD ⟨[], []⟩).keys kModel = find w'.keys kModel ∧
      Spec.modelKeys r = find w'.keys kModel :: Spec.models 1 (t'.map fun e => flag env (viewAfter e)) := by
  unfold full at h
  obtain ⟨es, h1, h2⟩ := Outcome.bind_eq_ok.1 h
  rw [externals] at h1
  obtain ⟨w', hw, h1⟩ := Outcome.bind_eq_ok.1 h1
  obtain ⟨t', ht, h1⟩ := Outcome.bind_eq_ok.1 h1
  cases h1
  have hv := view_processAll env [] (w' :: t')
  rcases hp : processAll env [] (w' :: t') with _ | ⟨x, y⟩
  · rw [hp] at hv; cases hv
  · rw [hp] at hv h2
    simp only [List.map_nil, List.nil_append, List.map_cons] at hv
    injection hv with hv1 hv2
    dsimp only at h2
    injection h2 with h2
    have hx : find x.keys kModel = find w'.keys kModel := congrArg (fun v => v.2.2) hv1
    have hlm := find_lm env x.keys
    refine ⟨w', t', hw, ht, ?_, ?_⟩
    · rw [← h2, ← hx]
      exact hlm
    · rw [← h2]
      show find _ _ :: Spec.modelKeys (number env 1 y) = _
      rw [models_number]
      congr 1
      · exact hlm.trans hx
      · congr 1
        have : (y.map view).map (flag env) = (t'.map viewAfter).map (flag env) := by rw [hv2]
        simpa [List.map_map, Function.comp_def] using this

/-! ### C220 -/

/-- **C220**: the classes whose brushes are added to the world, whatever their case. -/
theorem merged_iff (c : Str) : merged c = true ↔ c.map Char.toLower ∈ Spec.worldClasses := by
  have h : ∀ n ∈ Spec.worldClasses, n.map Char.toLower = n := by decide +kernel
  unfold merged removed ieq
  simp only [Spec.worldClasses, List.map_cons, List.map_nil, List.mem_cons, List.not_mem_nil, or_false, Bool.or_eq_true, decide_eq_true_eq]
  rw [h "func_detail".toList (by decide +kernel), h "func_group".toList (by decide +kernel),
    h "func_detail_illusionary".toList (by decide +kernel), h "func_detail_wall".toList (by decide +kernel),
    h "func_detail_fence".toList (by decide +kernel), h "func_illusionary_visblocker".toList (by decide +kernel),
    h "func_areaportal".toList (by decide +kernel)]
  simp only [or_assoc]

/-- In a full compile the entities that have a brush left after the origin brushes are taken out, whose class is not added to the world and
which are not dropped as triggers are numbered in their order, from 1; the others keep the key `model` they have. -/
theorem full_models {env : Env} {w : Entity} {t r : List Entity} (h : full env (w :: t) = .ok r) :
    ∃ t', externals env t = .ok t' ∧ (Spec.modelKeys r).tail = Spec.models 1 (t'.map fun e =>
      (decide (e.brushes.filter (·.origin = none) ≠ []) && !merged (get e.keys "classname".toList) &&
        !(env.notrigger && (e.brushes.filter (·.origin = none)).head?.any (·.trigger)), find e.keys "model".toList)) := by
  obtain ⟨w', t', _, ht, _, hm⟩ := full_ok h
  exact ⟨t', ht, by rw [hm]; rfl⟩

/-- With `-onlyents` all entities with brushes, even if they are origin brushes or triggers, are. -/
theorem only_models {env : Env} {w : Entity} {t r : List Entity} (h : only env (w :: t) = .ok r) :
    Spec.modelKeys r = find w.keys "model".toList :: Spec.models 1 (t.map fun e =>
      if ieq (get e.keys "classname".toList) "misc_external_map".toList = true
      then (!merged (get e.keys "_external_map_classname".toList), find e.keys "model".toList)
      else (decide (e.brushes ≠ []) && !merged (get e.keys "classname".toList), find e.keys "model".toList)) :=
  models_onlyAll h

/-- If no option drops triggers and every entity with brushes has one that is not an origin brush, `-onlyents` gives all entities the same
models as a full compile. -/
theorem same_models_partial {env : Env} {w : Entity} {t r1 r2 : List Entity}
    (h1 : full env (w :: t) = .ok r1) (h2 : only env (w :: t) = .ok r2)
    (hw : ieq (get w.keys "classname".toList) "misc_external_map".toList = false) (hn : env.notrigger = false)
    (hs : ∀ e ∈ t, (e.brushes ≠ [] → ∃ b ∈ e.brushes, b.origin = none) ∧
      (ieq (get e.keys "classname".toList) "misc_external_map".toList = true →
        ∃ b ∈ env.external (get e.keys "_external_map".toList), b.origin = none)) :
    Spec.modelKeys r2 = Spec.modelKeys r1 := by
  obtain ⟨w', t', hpw, ht, _, hm⟩ := full_ok h1
  have hww : w' = w := by
    rcases processExternal_ok hpw with ⟨_, rfl⟩ | ⟨hc, _⟩
    · rfl
    · exact absurd (hc.symm.trans hw) (by simp)
  subst hww
  rw [hm]
  refine (models_onlyAll h2).trans ?_
  show find _ _ :: Spec.models 1 _ = _
  congr 2
  have hf := externals_ok ht
  clear h1 h2 hm ht
  induction hf with
  | nil => rfl
  | cons hab _ ih =>
    rw [List.map_cons, List.map_cons]
    congr 1
    · exact onlyFlag_eq hab hn (hs _ (by simp)).1 (hs _ (by simp)).2
    · exact ih (fun e he => hs e (by simp [he]))

/-- A map that a full compile accepts is accepted with `-onlyents`. -/
theorem only_accepts {env : Env} {w : Entity} {t r : List Entity} (h : full env (w :: t) = .ok r) :
    ∃ r', only env (w :: t) = .ok r' := by
  obtain ⟨w', t', _, ht, _⟩ := full_ok h
  have hf := externals_ok ht
  have step : ∀ (e e' : Entity), processExternal env e = .ok e' → ∀ n b a, ∃ x, onlyEntity env n b a e = .ok x := by
    intro e e' he n b a
    unfold onlyEntity
    dsimp only
    rcases processExternal_ok he with ⟨hx, _⟩ | ⟨hx, _, hc, _, _⟩
    · rw [hx]
      simp only [Bool.false_eq_true, if_false]
      split_ifs with c1 c2 c3
      · exact ⟨_, rfl⟩
      · rw [hx] at c2; cases c2
      · exact ⟨_, rfl⟩
      · exact ⟨_, rfl⟩
      · exact ⟨_, rfl⟩
    · rw [hx]
      simp only [if_true]
      rw [if_neg (fun c => Bool.noConfusion c.2), get_set_ne origin_ne_class, get_set_eq, hc]
      simp only [Bool.false_eq_true, if_false]
      split_ifs <;> exact ⟨_, rfl⟩
  have gen : ∀ n b, ∃ r', onlyAll env n b t = .ok r' := by
    clear h ht
    rename_i hmm
    clear hmm
    induction hf with
    | nil => exact fun n b => ⟨b, rfl⟩
    | cons hab _ ih =>
      intro n b
      obtain ⟨x, hx⟩ := step _ _ hab n b _
      obtain ⟨r', hr⟩ := ih x.2 (b ++ [x.1])
      exact ⟨r', by rw [onlyAll, hx, Outcome.ok_bind, hr]⟩
  exact gen 1 [w]

def plain : Brush := ⟨none, false⟩
def trig : Brush := ⟨none, true⟩
def orig : Brush := ⟨some "8 8 8".toList, false⟩
def ent (cls : String) (more : Dict) (bs : List Brush) : Entity := ⟨(kClass, cls.toList) :: more, bs⟩
def noEnv : Env := ⟨fun _ => [plain], id, none, none, false, fun _ => ([], [])⟩
def world : Entity := ent "worldspawn" [] [plain]

/-- The property fails for an entity all of whose brushes are origin brushes: a full compile gives it no model, `-onlyents` does, and all
later entities get the model of another. -/
theorem shifted_by_origin_brush : ∃ es r1 r2, full noEnv es = .ok r1 ∧ only noEnv es = .ok r2 ∧
    Spec.modelKeys r1 = [none, none, some "*1".toList, some "*2".toList] ∧
    Spec.modelKeys r2 = [none, some "*1".toList, some "*2".toList, some "*3".toList] :=
  ⟨[world, ent "func_train" [] [orig], ent "func_wall" [] [plain], ent "func_door" [] [plain]], _, _, rfl, rfl,
    by decide +kernel, by decide +kernel⟩

/-- It fails with `-notriggermodels`. -/
theorem shifted_by_trigger : ∃ es r1 r2, full { noEnv with notrigger := true } es = .ok r1 ∧
    only { noEnv with notrigger := true } es = .ok r2 ∧
    Spec.modelKeys r1 = [none, none, some "*1".toList] ∧ Spec.modelKeys r2 = [none, some "*1".toList, some "*2".toList] :=
  ⟨[world, ent "trigger_once" [] [trig], ent "func_door" [] [plain]], _, _, rfl, rfl, by decide +kernel, by decide +kernel⟩

/-- A map with a group, a point entity, an external map, a door with an origin brush, and a rotating entity. -/
example : ∃ r1 r2, full noEnv [world, ent "func_group" [] [plain], ent "light" [] [],
      ent "misc_external_map" [("_external_map".toList, "a.map".toList), (kNewClass, "func_wall".toList)] [],
      ent "func_door" [] [orig, plain], ent "Rotate_object" [] [plain]] = .ok r1 ∧
    only noEnv [world, ent "func_group" [] [plain], ent "light" [] [],
      ent "misc_external_map" [("_external_map".toList, "a.map".toList), (kNewClass, "func_wall".toList)] [],
      ent "func_door" [] [orig, plain], ent "Rotate_object" [] [plain]] = .ok r2 ∧
    Spec.modelKeys r1 = [none, none, none, some "*1".toList, some "*2".toList, some "*3".toList] ∧
    Spec.modelKeys r2 = [none, none, none, some "*1".toList, some "*2".toList, some "*3".toList] :=
  ⟨_, _, rfl, rfl, by decide +kernel, by decide +kernel⟩

/-! ### C221 -/

/-- With no origin brush, no rotating entity, no scale, no `-lmscale` and no `-notriggermodels`, `-onlyents` writes the very entities of a
full compile. -/
theorem same_lump_partial {env : Env} {w : Entity} {t r1 r2 : List Entity}
    (h1 : full env (w :: t) = .ok r1) (h2 : only env (w :: t) = .ok r2)
    (hw : ieq (get w.keys "classname".toList) "misc_external_map".toList = false)
    (hn : env.notrigger = false) (hsc : env.scaled = none) (hlm : env.lmscale = none)
    (ho : ∀ e ∈ w :: t, Spec.NoOrigin env e)
    (hr : ∀ e ∈ w :: t, ieq ((get e.keys "classname".toList).take 7) "rotate_".toList = false ∧
      ieq ((get e.keys "_external_map_classname".toList).take 7) "rotate_".toList = false) :
    written r2 = written r1 ∧ r2.map (·.keys) = r1.map (·.keys) := by
  -- the first pass leaves all as it is
  have oK : ∀ (b : Bool) (d : Dict) (bs : List Brush), (∀ x ∈ bs, x.origin = none) → originKeys b d bs = d := by
    intro b d bs h
    induction bs with
    | nil => rfl
    | cons x t ih =>
      rw [originKeys, h x (by simp)]
      exact ih (fun y hy => h y (by simp [hy]))
  have pE : ∀ (b : Bool) (l a : List Entity) (e : Entity), (∀ x ∈ e.brushes, x.origin = none) →
      ieq ((get e.keys kClass).take 7) "rotate_".toList = false → processEntity env b l a e = e := by
    intro b l a e hb hc
    have hf : e.brushes.filter (·.origin = none) = e.brushes := List.filter_eq_self.2 (fun x hx => by simpa using hb x hx)
    unfold processEntity
    rw [oK b _ _ hb, hf]
    show rescaled env (rotated env _ l a e) = e
    rw [rotated, if_neg (by rw [hc]; simp), rescaled, hsc]
  have pA : ∀ (es before : List Entity), (∀ e ∈ es, (∀ x ∈ e.brushes, x.origin = none) ∧
      ieq ((get e.keys kClass).take 7) "rotate_".toList = false) → processAll env before es = before ++ es := by
    intro es
    induction es with
    | nil => intro before _; simp [processAll]
    | cons e t ih =>
      intro before h
      rw [processAll, pE _ _ _ _ (h e (by simp)).1 (h e (by simp)).2, ih _ (fun y hy => h y (by simp [hy])), List.append_assoc]
      rfl
  unfold full at h1
  obtain ⟨es, he, h1'⟩ := Outcome.bind_eq_ok.1 h1
  clear h1
  rename' h1' => h1
  have hf := externals_ok he
  obtain ⟨w', t', hpw, hf', rfl⟩ : ∃ w' t', processExternal env w = .ok w' ∧
      List.Forall₂ (fun e e' => processExternal env e = .ok e') t t' ∧ es = w' :: t' := by
    cases hf with
    | cons a b => exact ⟨_, _, a, b, rfl⟩
  have hww : w' = w := by
    rcases processExternal_ok hpw with ⟨_, rfl⟩ | ⟨hc, _⟩
    · rfl
    · exact absurd (hc.symm.trans hw) (by simp)
  subst hww
  have good : ∀ (e e' : Entity), e ∈ w' :: t → processExternal env e = .ok e' → (∀ x ∈ e'.brushes, x.origin = none) ∧
      ieq ((get e'.keys kClass).take 7) "rotate_".toList = false := by
    intro e e' hm hp
    rcases processExternal_ok hp with ⟨_, rfl⟩ | ⟨hc, _, _, _, rfl⟩
    · exact ⟨(ho _ hm).1, (hr _ hm).1⟩
    · refine ⟨(ho _ hm).2 hc, ?_⟩
      show ieq ((get (set (set e.keys kClass _) kOrigin _) kClass).take 7) _ = false
      rw [get_set_ne origin_ne_class, get_set_eq]
      exact (hr _ hm).2
  have goodT : ∀ e ∈ w' :: t', (∀ x ∈ e.brushes, x.origin = none) ∧ ieq ((get e.keys kClass).take 7) "rotate_".toList = false := by
    intro e hm
    rcases List.mem_cons.1 hm with rfl | hm
    · exact good _ _ (by simp) hpw
    · obtain ⟨i, hi, rfl⟩ := List.mem_iff_getElem.1 hm
      have hi' : i < t.length := by rw [hf'.length_eq]; exact hi
      exact good _ _ (List.mem_cons_of_mem _ (List.getElem_mem hi')) (hf'.get hi' hi)
  rw [pA _ _ goodT] at h1
  rw [hlm] at h1
  dsimp only [List.nil_append] at h1
  injection h1 with h1
  -- the second pass, beside the only pass of `-onlyents`
  have main : ∀ (t t' : List Entity) (n : Nat) (b r : List Entity),
      List.Forall₂ (fun e e' => processExternal env e = .ok e') t t' →
      (∀ e ∈ t, (∀ b ∈ e.brushes, b.origin = none) ∧ ieq ((get e.keys kClass).take 7) "rotate_".toList = false ∧
        ieq ((get e.keys kNewClass).take 7) "rotate_".toList = false) →
      onlyAll env n b t = .ok r → r.map (·.keys) = b.map (·.keys) ++ (number env n t').map (·.keys) := by
    have notRot : ∀ c : Str, ieq (c.take 7) "rotate_".toList = false → c.take 7 ≠ "rotate_".toList := by
      intro c hc h
      rw [h] at hc
      revert hc; decide +kernel
    intro t
    induction t with
    | nil =>
      intro t' n b r hf _ hr
      cases hf
      cases hr
      simp [number]
    | cons e t ih =>
      intro t' n b r hf hg hr
      obtain ⟨e', t'', hp, hft, rfl⟩ : ∃ e' t'', processExternal env e = .ok e' ∧
          List.Forall₂ (fun e e' => processExternal env e = .ok e') t t'' ∧ t' = e' :: t'' := by
        cases hf with
        | cons a b => exact ⟨_, _, a, b, rfl⟩
      rw [onlyAll] at hr
      obtain ⟨x, hx, hr⟩ := Outcome.bind_eq_ok.1 hr
      have hrec := ih t'' x.2 (b ++ [x.1]) r hft (fun y hy => hg y (by simp [hy])) hr
      rw [hrec, List.map_append, List.append_assoc]
      congr 1
      show x.1.keys :: (number env x.2 t'').map (·.keys) = (number env n (e' :: t'')).map (·.keys)
      rw [number]
      unfold onlyEntity at hx
      dsimp only at hx
      obtain ⟨_, hrot, hrot'⟩ := hg e (by simp)
      have hd : discarded env e' = false := by simp [discarded, hn]
      rw [hd, hlm]
      simp only [Bool.false_eq_true, if_false]
      rcases processExternal_ok hp with ⟨hc, rfl⟩ | ⟨hc, hb0, hc2, hb1, rfl⟩
      · rw [hc] at hx
        simp only [Bool.false_eq_true, if_false] at hx
        by_cases hb : e'.brushes = []
        · rw [if_pos ⟨hb, trivial⟩] at hx
          cases hx
          rw [if_pos hb]; rfl
        rw [if_neg (fun c => hb c.1), hc] at hx
        simp only [Bool.false_eq_true, if_false] at hx
        rw [if_neg hb]
        by_cases hm : merged (get e'.keys kClass) = true
        · rw [if_pos hm] at hx
          cases hx
          rw [if_pos hm]; rfl
        · rw [if_neg hm, get_set_ne model_ne_class, if_neg (notRot _ hrot)] at hx
          cases hx
          rw [if_neg hm]; rfl
      · rw [hc] at hx
        simp only [if_true] at hx
        rw [if_neg (fun c => Bool.noConfusion c.2)] at hx
        rw [get_set_ne origin_ne_class, get_set_eq, hc2] at hx
        simp only [Bool.false_eq_true, if_false] at hx
        rw [if_neg hb1, get_set_ne origin_ne_class, get_set_eq]
        by_cases hm : merged (get e.keys kNewClass) = true
        · rw [if_pos hm] at hx
          cases hx
          rw [if_pos hm]; rfl
        · rw [if_neg hm, get_set_ne model_ne_class, get_set_ne origin_ne_class, get_set_eq, if_neg (notRot _ hrot')] at hx
          cases hx
          rw [if_neg hm]; rfl
  have hk : r2.map (·.keys) = r1.map (·.keys) := by
    rw [main t t' 1 [w'] r2 hf' (fun e he => ⟨(ho e (by simp [he])).1, hr e (by simp [he])⟩) h2, ← h1]
    rfl
  refine ⟨?_, hk⟩
  have wr : ∀ l : List Entity, written l =
      ((l.map (·.keys)).filter fun d => decide (d ≠ []) && !removed (get d kClass)).map
        fun d => d.filter fun kv => kv.1.take 4 ≠ "_tb_".toList := by
    intro l
    induction l with
    | nil => rfl
    | cons e l ih =>
      have : written (e :: l) = if (decide (e.keys ≠ []) && !removed (get e.keys kClass)) = true then
          (e.keys.filter fun kv => kv.1.take 4 ≠ "_tb_".toList) :: written l else written l := by
        unfold written
        rw [List.filter_cons]
        split_ifs <;> rfl
      rw [this, ih, List.map_cons, List.filter_cons]
      split_ifs <;> rfl
  rw [wr, wr, hk]

/-- What is written has no key of an editor, is not empty but for such keys, and has no entity whose brushes are the world's. -/
theorem written_iff (es : List Entity) (d : Dict) :
    d ∈ written es ↔ ∃ e ∈ es, e.keys ≠ [] ∧ removed (get e.keys "classname".toList) = false ∧
      d = e.keys.filter fun kv => kv.1.take 4 ≠ "_tb_".toList := by
  unfold written
  rw [List.mem_map]
  constructor
  · rintro ⟨e, he, rfl⟩
    obtain ⟨h1, h2⟩ := List.mem_filter.1 he
    simp only [Bool.and_eq_true, decide_eq_true_eq, Bool.not_eq_true'] at h2
    exact ⟨e, h1, h2.1, h2.2, rfl⟩
  · rintro ⟨e, h1, h2, h3, rfl⟩
    refine ⟨e, List.mem_filter.2 ⟨h1, ?_⟩, rfl⟩
    simp only [Bool.and_eq_true, decide_eq_true_eq, Bool.not_eq_true']
    exact ⟨h2, h3⟩

/-- The property fails for an origin brush: a full compile writes its centre as the origin, about which it has moved the model; `-onlyents`
writes no origin, so that the model is at the wrong place. -/
theorem origin_lost : ∃ es r1 r2, full noEnv es = .ok r1 ∧ only noEnv es = .ok r2 ∧
    r1.map (fun e => find e.keys kOrigin) = [none, some "8 8 8".toList] ∧ r2.map (fun e => find e.keys kOrigin) = [none, none] :=
  ⟨[world, ent "func_door_rotating" [] [plain, orig]], _, _, rfl, rfl, by decide +kernel, by decide +kernel⟩

/-- In general: `-onlyents` keeps the origin, or its absence, of an entity that is neither rotating nor an external map. -/
theorem only_keeps_origin {env : Env} {n : Nat} {b a : List Entity} {e : Entity} {x : Entity × Nat}
    (h : onlyEntity env n b a e = .ok x) (hc : ieq (get e.keys "classname".toList) "misc_external_map".toList = false)
    (hr : (get e.keys "classname".toList).take 7 ≠ "rotate_".toList) : find x.1.keys "origin".toList = find e.keys "origin".toList := by
  unfold onlyEntity at h
  dsimp only at h
  have hc' : ieq (get e.keys kClass) external = false := hc
  have hr' : (get e.keys kClass).take 7 ≠ "rotate_".toList := hr
  rw [hc'] at h
  simp only [Bool.false_eq_true, if_false] at h
  split_ifs at h with h1 h2 h3 h4
  · cases h; rfl
  · cases h; rfl
  · rw [get_set_ne model_ne_class] at h4
    exact absurd h4 hr'
  · cases h
    exact find_set_ne (by decide +kernel)

/-- While a full compile gives an entity without an origin the centre of its first origin brush. -/
theorem full_sets_origin (env : Env) (b a : List Entity) (e : Entity) (front back : List Brush) (o : Brush) (c : Str)
    (hs : env.scaled = none) (hb : e.brushes = front ++ o :: back) (hf : ∀ x ∈ front, x.origin = none) (hc : o.origin = some c)
    (hn : find e.keys "origin".toList = none) : find (processEntity env false b a e).keys "origin".toList = some c := by
  have keep : ∀ (bs : List Brush) (d : Dict), find d kOrigin = some c → find (originKeys false d bs) kOrigin = some c := by
    intro bs
    induction bs with
    | nil => exact fun d h => h
    | cons x t ih =>
      intro d h
      rw [originKeys]
      cases x.origin with
      | none => exact ih d h
      | some c' =>
        show find (originKeys false (if (find d kOrigin).isSome then d else set d kOrigin c') t) kOrigin = _
        rw [h]; exact ih d h
  have first : ∀ (bs : List Brush) (d : Dict), (∀ x ∈ bs, x.origin = none) →
      originKeys false d (bs ++ o :: back) = originKeys false d (o :: back) := by
    intro bs
    induction bs with
    | nil => exact fun d _ => rfl
    | cons x t ih =>
      intro d h
      rw [List.cons_append, originKeys, h x (by simp)]
      exact ih d (fun y hy => h y (by simp [hy]))
  unfold processEntity
  have hany : e.brushes.any (·.origin ≠ none) = true := by
    rw [hb, List.any_eq_true]
    exact ⟨o, by simp, by simp [hc]⟩
  rw [hany, rotated, if_neg (fun c => Bool.noConfusion c.1), rescaled, hs]
  show find (originKeys false e.keys e.brushes) kOrigin = some c
  rw [hb, first front e.keys hf, originKeys, hc]
  have hn' : find e.keys kOrigin = none := hn
  show find (originKeys false (if (find e.keys kOrigin).isSome then e.keys else set e.keys kOrigin c) back) kOrigin = some c
  rw [hn']
  exact keep back _ (by rw [if_neg (by simp), find_set, if_pos rfl])

/-- It fails for `-scale`, which `-onlyents` does not know, and for classes like `Rotate_door`, of which it does not know the prefix. -/
theorem scale_ignored : ∃ es r1 r2, full { noEnv with scaled := some fun o => some (o ++ o) } es = .ok r1 ∧
    only { noEnv with scaled := some fun o => some (o ++ o) } es = .ok r2 ∧ written r1 ≠ written r2 :=
  ⟨[world, ent "light" [(kOrigin, "1".toList)] []], _, _, rfl, rfl, by decide +kernel⟩

theorem rotate_case : ∃ es r1 r2, full noEnv es = .ok r1 ∧ only noEnv es = .ok r2 ∧
    r1.map (fun e => find e.keys kOrigin) = [none, some "1 2 3".toList, some "1 2 3".toList] ∧
    r2.map (fun e => find e.keys kOrigin) = [none, some "1 2 3".toList, none] :=
  ⟨[world, ent "info_rotate" [(kOrigin, "1 2 3".toList), ("targetname".toList, "t".toList)] [],
    ent "Rotate_object" [("target".toList, "t".toList)] [plain]], _, _, rfl, rfl, by decide +kernel, by decide +kernel⟩

/-- And in a full compile with `-scale` the origin of a rotating entity is scaled twice if the entity it turns about comes first, and once
if it comes after. Here scaling writes a text twice. -/
theorem scaled_twice : ∃ a b r1 r2, full { noEnv with scaled := some fun o => some (o ++ o) } [world, a, b] = .ok r1 ∧
    full { noEnv with scaled := some fun o => some (o ++ o) } [world, b, a] = .ok r2 ∧
    r1.map (fun e => find e.keys kOrigin) = [none, some "xx".toList, some "xxxx".toList] ∧
    r2.map (fun e => find e.keys kOrigin) = [none, some "xx".toList, some "xx".toList] :=
  ⟨ent "info_rotate" [(kOrigin, "x".toList), ("targetname".toList, "t".toList)] [],
    ent "rotate_object" [("target".toList, "t".toList)] [plain], _, _, rfl, rfl, by decide +kernel, by decide +kernel⟩

/-- A map that meets what `same_lump_partial` asks for, with a group that is not written. -/
example : ∃ r1 r2, full noEnv [world, ent "func_group" [] [plain], ent "light" [("_tb_x".toList, "1".toList)] [],
      ent "misc_external_map" [("_external_map".toList, "a.map".toList), (kNewClass, "func_wall".toList)] []] = .ok r1 ∧
    only noEnv [world, ent "func_group" [] [plain], ent "light" [("_tb_x".toList, "1".toList)] [],
      ent "misc_external_map" [("_external_map".toList, "a.map".toList), (kNewClass, "func_wall".toList)] []] = .ok r2 ∧
    written r1 = [[(kClass, "worldspawn".toList)], [(kClass, "light".toList)],
      [(kClass, "func_wall".toList), ("_external_map".toList, "a.map".toList), (kNewClass, "func_wall".toList),
        (kOrigin, "0 0 0".toList), (kModel, "*1".toList)]] ∧ written r2 = written r1 :=
  ⟨_, _, rfl, rfl, by decide +kernel, by decide +kernel⟩

end Verif.OnlyEnts
