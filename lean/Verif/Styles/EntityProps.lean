import Verif.Styles.Props

/-!
C135: what light does to the other keys of entities, and to the entities of a BSP file that was lit before.
-/

namespace Verif.Styles

open Verif
open Verif.EntData (Str Dict get set find keys find_set)

/-- How a text with escape sequences is to be read: `\b` switches between plain and bold, and bold characters have
their highest bit set. -/
inductive Rendered : Bool → Str → Str → Prop
  | done (bold) : Rendered bold [] []
  | switch (bold s r) : Rendered (!bold) s r → Rendered bold (92 :: 98 :: s) r
  | plain (c s r) : ¬ [92, 98] <+: c :: s → Rendered false s r → Rendered false (c :: s) (c :: r)
  | bold (c s r) : ¬ [92, 98] <+: c :: s → Rendered true s r → Rendered true (c :: s) ((c ||| 128) :: r)

/-- **C135**: escape sequences are read as they should be. -/
theorem escape_rendered (s : Str) : ∀ (bold : Bool), Rendered bold s (escape bold s) := by
  induction s using List.twoStepInduction with
  | nil => intro bold; exact .done bold
  | singleton c =>
    intro bold
    have hn : ¬ [92, 98] <+: [c] := fun h => by have := h.length_le; simp at this
    cases bold with
    | false => exact .plain c [] [] hn (.done _)
    | true => exact .bold c [] [] hn (.done _)
  | cons_cons c d s ih1 ih2 =>
    intro bold
    unfold escape
    split
    · next h =>
      obtain ⟨rfl, rfl⟩ := h
      exact .switch _ _ _ (ih1 _)
    · next h =>
      have hn : ¬ [92, 98] <+: c :: d :: s := by
        intro hp
        rw [List.cons_prefix_cons, List.cons_prefix_cons] at hp
        exact h ⟨hp.1.symm, hp.2.1.symm⟩
      cases bold with
      | false => exact .plain _ _ _ hn (ih2 d false)
      | true => exact .bold _ _ _ hn (ih2 d true)

/-- **C135**: apart from the styles, light keeps the keys of entities, and changes their values only by reading escape
sequences. -/
theorem other_keys_kept (start max : Int) (ents ents' : List Dict) (T : Table)
    (h : firstPass start max [] ents = .ok (T, ents')) (i : Nat) (d e : Dict) (k : Str) (hd : ents[i]? = some d)
    (he : ents'[i]? = some e) (hs : ¬ Slot d k) :
    (find d k = none → find e k = none) ∧ ∀ v, find d k = some v → ∃ r, find e k = some r ∧ Rendered false v r ∧
      (Unescaped v → r = v) := by
  obtain ⟨_, _, _, _, ho⟩ := firstPass_trace ents [] T ents' 0 h
  have := ho i d e k hd he hs
  refine ⟨fun hn => by rw [this, hn]; rfl, fun v hv => ?_⟩
  refine ⟨escape false v, by rw [this, hv]; rfl, escape_rendered v false, escape_unescaped v⟩

/-- C135, the claim on `lightmap_scale`: it is replaced by `_lightmap_scale` with the same value. -/
def ScaleRenamed : Prop := ∀ (start max : Int) (ents : List Dict), start < max →
  (∀ d ∈ ents, d.map Prod.fst = [lit "classname", lit "lightmap_scale"]) →
  ∃ T ents', firstPass start max [] ents = .ok (T, ents') ∧ ents'.length = ents.length ∧
    ∀ (i : Nat) (d e : Dict), ents[i]? = some d → ents'[i]? = some e →
      find e (lit "_lightmap_scale") = (find d (lit "lightmap_scale")).map (escape false)

/-- **C135**, negation: the value is used after it was erased. -/
theorem lightmap_scale_undefined : ¬ ScaleRenamed := by
  intro h
  obtain ⟨T, e, h1, _⟩ := h 32 64 [[(lit "classname", lit "worldspawn"), (lit "lightmap_scale", lit "2")]] (by omega)
    (by simp)
  have : firstPass 32 64 [] [[(lit "classname", lit "worldspawn"), (lit "lightmap_scale", lit "2")]] = .ub := by
    decide +kernel
  rw [this] at h1
  cases h1

/-! ### Lighting again -/

theorem set_same (d : Dict) (k v : Str) (h : find d k = some v) : set d k v = d := by
  induction d with
  | nil => simp [find] at h
  | cons p d ih =>
    obtain ⟨a, w⟩ := p
    simp only [find] at h
    simp only [EntData.set]
    split at h
    · next hk =>
      rw [if_pos hk]
      simp only [Option.some.injEq] at h
      rw [h]
    · next hk => rw [if_neg hk, ih h]

theorem set_values (d : Dict) (k v : Str) : ∀ p ∈ set d k v, p ∈ d ∨ p.2 = v := by
  induction d with
  | nil => intro p hp; simp [EntData.set] at hp; right; rw [hp]
  | cons q d ih =>
    obtain ⟨a, w⟩ := q
    intro p hp
    simp only [EntData.set] at hp
    split at hp
    · rcases List.mem_cons.mp hp with rfl | hp
      · right; rfl
      · left; exact List.mem_cons_of_mem _ hp
    · rcases List.mem_cons.mp hp with rfl | hp
      · left; exact List.mem_cons_self ..
      · rcases ih p hp with h | h
        · left; exact List.mem_cons_of_mem _ h
        · right; exact h

theorem setAll_values (l : List (Str × Int)) : ∀ (d : Dict), (∀ p ∈ d, Unescaped p.2) →
    ∀ p ∈ setAll d l, Unescaped p.2 := by
  induction l with
  | nil => intro d h; exact h
  | cons q l ih =>
    intro d h
    apply ih
    intro p hp
    rcases set_values _ _ _ p hp with h1 | h1
    · exact h p h1
    · rw [h1]; exact decimal_unescaped _

theorem unfold_id (d : Dict) (h : ∀ p ∈ d, Unescaped p.2) : unfoldEscapes d = d := by
  unfold unfoldEscapes
  conv_rhs => rw [← List.map_id d]
  apply List.map_congr_left
  intro p hp
  rw [escape_unescaped _ (h p hp)]
  rfl

theorem setAll_again (l : List (Str × Int)) (d : Dict) (h : ∀ p ∈ l, find d p.1 = some (decimal p.2)) :
    setAll d l = d := by
  induction l with
  | nil => rfl
  | cons q l ih =>
    have h1 : setAll d (q :: l) = setAll (set d q.1 (decimal q.2)) l := rfl
    rw [h1, set_same d _ _ (h q (List.mem_cons_self ..))]
    exact ih (fun p hp => h p (List.mem_cons_of_mem _ hp))

theorem classname_not_slot (d : Dict) : lit "classname" ∉ slotKeys d ∧ lit "targetname" ∉ slotKeys d ∧
    lit "_switchableshadow" ∉ slotKeys d ∧ lit "lightmap_scale" ∉ slotKeys d := by
  have h : ∀ k, k ≠ lit "style" → k ≠ lit "switchshadstyle" → k ∉ slotKeys d := by
    intro k h1 h2 hk
    rw [← slot_iff] at hk
    cases hk with
    | light _ _ => exact h1 rfl
    | shadow _ => exact h2 rfl
  exact ⟨h _ (by decide +kernel) (by decide +kernel), h _ (by decide +kernel) (by decide +kernel),
    h _ (by decide +kernel) (by decide +kernel), h _ (by decide +kernel) (by decide +kernel)⟩

/-- A round for an entity that has gone through one. -/
theorem prepare_again {start max : Int} {t t' : Table} {d e : Dict} (hu : ∀ p ∈ d, Unescaped p.2)
    (h : prepare start max t d = .ok (t', e)) : prepare start max t e = .ok (t', e) := by
  have hd := prepare_ok_defined h
  obtain ⟨ss', hr', hl', hk', ho'⟩ := prepare_trace h
  rw [prepare_defined _ _ _ _ hd, hr'] at h
  simp only [Outcome.bind, Outcome.ok.injEq, Prod.mk.injEq, true_and] at h
  have hv := setAll_values ((slotKeys d).zip ss') d hu
  have he : setAll d ((slotKeys d).zip ss') = e := by
    rw [← h]
    exact (unfold_id _ hv).symm
  rw [he] at hv
  have hz : (((slotKeys d).zip ss').map Prod.fst) = slotKeys d := List.map_fst_zip (by rw [hl', slotKeys_length])
  have hget : ∀ k, k ∉ slotKeys d → get e k = get d k := by
    intro k hk
    unfold EntData.get
    rw [← he, find_setAll_other _ _ _ (fun p hp hpk => hk (by rw [← hz, ← hpk]; exact List.mem_map_of_mem hp))]
  obtain ⟨hc, ht, hs, hm⟩ := classname_not_slot d
  have hnm : nameOf e = nameOf d := hget _ ht
  have hli : IsLight e ↔ IsLight d := by unfold IsLight; rw [hget _ hc]
  have hgi := getInt_congr (hget _ hs)
  have hsh : IsShadow e ↔ IsShadow d := by unfold IsShadow; rw [hgi]
  have hsn : slotNames e = slotNames d := by unfold slotNames; simp only [hnm, hli, hsh]
  have hsk : slotKeys e = slotKeys d := by unfold slotKeys; simp only [hnm, hli, hsh]
  have hde : Defined e := ⟨by rw [hget _ hm]; exact hd.1, by rw [hgi]; exact hd.2⟩
  rw [prepare_defined _ _ _ _ hde, hsn, hsk, hr']
  simp only [Outcome.bind, Outcome.ok.injEq, Prod.mk.injEq, true_and]
  have hag : setAll e ((slotKeys d).zip ss') = e := by
    apply setAll_again
    intro p hp
    rw [← he]
    exact find_setAll_mem _ _ p (by rw [hz]; exact slotKeys_nodup d) hp
  unfold setAll at hag
  rw [hag, unfold_id e hv]

/-- C135, the claim: lighting a BSP file again gives the same entities. -/
def LightsAgain (start max : Int) (ents : List Dict) : Prop := ∀ T ents',
  firstPass start max [] ents = .ok (T, ents') → firstPass start max [] ents' = .ok (T, ents')

/-- **C135**: it does if there are no escape sequences. -/
theorem light_again_partial (start max : Int) (ents : List Dict) (hu : ∀ d ∈ ents, ∀ p ∈ d, Unescaped p.2) :
    LightsAgain start max ents := by
  intro T ents' h
  suffices hs : ∀ (ents : List Dict), (∀ d ∈ ents, ∀ p ∈ d, Unescaped p.2) → ∀ (t : Table) (ents' : List Dict),
      firstPass start max t ents = .ok (T, ents') → firstPass start max t ents' = .ok (T, ents') from
    hs ents hu [] ents' h
  intro ents
  induction ents with
  | nil =>
    intro _ t ents' h
    simp only [firstPass, Outcome.ok.injEq, Prod.mk.injEq] at h
    obtain ⟨rfl, rfl⟩ := h
    rfl
  | cons d ds ih =>
    intro hu t ents' h
    unfold firstPass at h
    rw [Outcome.bind_eq_ok] at h
    obtain ⟨⟨t1, e⟩, h1, h⟩ := h
    rw [Outcome.bind_eq_ok] at h
    obtain ⟨⟨T', es⟩, h2, h⟩ := h
    simp only [Outcome.pure_eq, Outcome.ok.injEq, Prod.mk.injEq] at h
    obtain ⟨rfl, rfl⟩ := h
    unfold firstPass
    rw [prepare_again (hu d (List.mem_cons_self ..)) h1]
    simp only [Outcome.ok_bind]
    rw [ih (fun d' hd' => hu d' (List.mem_cons_of_mem _ hd')) t1 es h2]
    rfl

-- the entities above
example : (∀ d ∈ someEntities, ∀ p ∈ d, Unescaped p.2) ∧ ∃ r, firstPass 32 64 [] someEntities = .ok r := by
  refine ⟨by unfold Unescaped; decide +kernel, ?_⟩
  rw [(styles_enough 32 64 someEntities (by unfold Defined; decide +kernel)).1]
  right
  decide +kernel

/-- Two lights: the name of the second is in effect the same, but for escape sequences that do nothing. -/
def sameNames : List Dict :=
  [[(lit "classname", lit "light"), (lit "targetname", lit "a")],
   [(lit "classname", lit "light"), (lit "targetname", [92, 98, 92, 98, 97])]]

/-- **C135**, negation: two lights have the same name after escape sequences have been read, but different styles;
lighting again gives them the same style. -/
theorem escapes_change_on_relight : ¬ ∀ start max ents, LightsAgain start max ents := by
  intro h
  have h1 : firstPass 32 64 [] sameNames = .ok ([(lit "a", 32), ([92, 98, 92, 98, 97], 33)],
      [[(lit "classname", lit "light"), (lit "targetname", lit "a"), (lit "style", lit "32")],
       [(lit "classname", lit "light"), (lit "targetname", lit "a"), (lit "style", lit "33")]]) := by decide +kernel
  have h2 := h 32 64 sameNames _ _ h1
  revert h2
  decide +kernel

end Verif.Styles
