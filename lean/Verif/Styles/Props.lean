import Verif.Styles.PassLemmas

/-!
C133: styles of switchable lights and shadows.
-/

namespace Verif.Styles

open Verif
open Verif.EntData (Str Dict get set find keys find_set keys_set)

/-! ### One entity -/

/-- Several keys set one after the other. -/
def setAll (d : Dict) (l : List (Str × Int)) : Dict := l.foldl (fun d p => set d p.1 (decimal p.2)) d

theorem find_setAll_other (l : List (Str × Int)) : ∀ (d : Dict) (k : Str), (∀ p ∈ l, p.1 ≠ k) →
    find (setAll d l) k = find d k := by
  induction l with
  | nil => intro d k _; rfl
  | cons p l ih =>
    intro d k h
    have := ih (set d p.1 (decimal p.2)) k (fun q hq => h q (List.mem_cons_of_mem _ hq))
    rw [find_set, if_neg (fun e => h p (List.mem_cons_self ..) e.symm)] at this
    exact this

theorem find_setAll_mem (l : List (Str × Int)) : ∀ (d : Dict) (p : Str × Int), (l.map Prod.fst).Nodup → p ∈ l →
    find (setAll d l) p.1 = some (decimal p.2) := by
  induction l with
  | nil => intro d p _ hp; simp at hp
  | cons q l ih =>
    intro d p hn hp
    rw [List.map_cons, List.nodup_cons] at hn
    rcases List.mem_cons.mp hp with rfl | hp
    · have := find_setAll_other l (set d p.1 (decimal p.2)) p.1
        (fun r hr e => hn.1 (by rw [← e]; exact List.mem_map_of_mem hr))
      rw [find_set, if_pos rfl] at this
      exact this
    · exact ih _ p hn.2 hp

theorem slotKeys_nodup (d : Dict) : (slotKeys d).Nodup := by
  unfold slotKeys
  split <;> split <;> simp [shad_ne_style]

theorem prepare_ok_defined {start max : Int} {t t' : Table} {d e : Dict} (h : prepare start max t d = .ok (t', e)) :
    Defined d := by
  unfold prepare at h
  rw [Outcome.bind_eq_ok] at h
  obtain ⟨d1, h1, h⟩ := h
  unfold fixScale at h1
  split at h1
  · next hs =>
    cases h1
    refine ⟨List.isEmpty_iff.mp hs, ?_⟩
    intro hub
    rw [Outcome.bind_eq_ok] at h
    obtain ⟨⟨t1, d2⟩, h2, h⟩ := h
    rw [Outcome.bind_eq_ok] at h
    obtain ⟨⟨t2, d3⟩, h3, _⟩ := h
    have hg : getInt d2 (lit "_switchableshadow") = getInt d (lit "_switchableshadow") := by
      rw [lightStyle_eq] at h2
      split at h2
      · cases hst : styleFor start max t (nameOf d) with
        | ub => rw [hst] at h2; cases h2
        | error => rw [hst] at h2; cases h2
        | ok r =>
          rw [hst] at h2
          simp only [Outcome.bind, Outcome.ok.injEq, Prod.mk.injEq] at h2
          rw [← h2.2]
          exact getInt_congr (get_set_other _ _ _ _ style_ne_shadow)
      · simp only [Outcome.ok.injEq, Prod.mk.injEq] at h2
        rw [h2.2]
    unfold shadowStyle at h3
    rw [hg, hub] at h3
    cases h3
  · cases h1

/-- What a successful round gives. -/
theorem prepare_trace {start max : Int} {t t' : Table} {d e : Dict} (h : prepare start max t d = .ok (t', e)) :
    ∃ ss, requests start max t (slotNames d) = .ok (t', ss) ∧ ss.length = (slotNames d).length ∧
      (∀ (p : Nat) (k : Str), (slotKeys d)[p]? = some k → ∃ s, ss[p]? = some s ∧ find e k = some (decimal s)) ∧
      ∀ k, ¬ Slot d k → find e k = (find d k).map (escape false) := by
  have hd := prepare_ok_defined h
  rw [prepare_defined _ _ _ _ hd] at h
  cases hr : requests start max t (slotNames d) with
  | ub => rw [hr] at h; cases h
  | error => rw [hr] at h; cases h
  | ok r =>
    obtain ⟨t1, ss⟩ := r
    rw [hr] at h
    simp only [Outcome.bind, Outcome.ok.injEq, Prod.mk.injEq] at h
    obtain ⟨rfl, rfl⟩ := h
    have hlen : ss.length = (slotNames d).length := by
      have : ∀ (ns : List Str) (t T : Table) (ss : List Int), requests start max t ns = .ok (T, ss) →
          ss.length = ns.length := by
        intro ns
        induction ns with
        | nil => intro t T ss h; simp only [requests, Outcome.ok.injEq, Prod.mk.injEq] at h; rw [← h.2]; rfl
        | cons n ns ih =>
          intro t T ss h
          unfold requests at h
          rw [Outcome.bind_eq_ok] at h
          obtain ⟨⟨s, t1⟩, _, h⟩ := h
          rw [Outcome.bind_eq_ok] at h
          obtain ⟨⟨T', ss'⟩, h2, h⟩ := h
          simp only [Outcome.pure_eq, Outcome.ok.injEq, Prod.mk.injEq] at h
          rw [← h.2, List.length_cons, ih _ _ _ h2, List.length_cons]
      exact this _ _ _ _ hr
    have hz : (((slotKeys d).zip ss).map Prod.fst) = slotKeys d :=
      List.map_fst_zip (by rw [hlen, slotKeys_length])
    refine ⟨ss, rfl, hlen, ?_, ?_⟩
    · intro p k hk
      have hp : p < ss.length := by
        rw [hlen, ← slotKeys_length]
        by_contra hne
        rw [List.getElem?_eq_none (by omega)] at hk
        cases hk
      refine ⟨ss[p], List.getElem?_eq_getElem hp, ?_⟩
      have hm : (k, ss[p]) ∈ (slotKeys d).zip ss := by
        apply List.mem_of_getElem? (i := p)
        rw [List.getElem?_zip_eq_some]
        exact ⟨hk, List.getElem?_eq_getElem hp⟩
      rw [find_unfold]
      have := find_setAll_mem ((slotKeys d).zip ss) d (k, ss[p]) (by rw [hz]; exact slotKeys_nodup d) hm
      unfold setAll at this
      rw [this, Option.map_some, escape_unescaped _ (decimal_unescaped _)]
    · intro k hk
      rw [find_unfold]
      have := find_setAll_other ((slotKeys d).zip ss) d k (by
        intro p hp he
        apply hk
        rw [slot_iff, ← hz, ← he]
        exact List.mem_map_of_mem hp)
      unfold setAll at this
      rw [this]

/-! ### All entities -/

theorem requests_append (start max : Int) (a b : List Str) : ∀ (t : Table),
    requests start max t (a ++ b) = (requests start max t a).bind fun r =>
      (requests start max r.1 b).bind fun q => .ok (q.1, r.2 ++ q.2) := by
  induction a with
  | nil =>
    intro t
    simp only [List.nil_append, requests, Outcome.bind]
    cases requests start max t b <;> rfl
  | cons n a ih =>
    intro t
    simp only [List.cons_append, requests]
    cases styleFor start max t n with
    | ub => rfl
    | error => rfl
    | ok r =>
      simp only [Outcome.ok_bind, ih]
      cases requests start max r.2 a with
      | ub => rfl
      | error => rfl
      | ok q =>
        simp only [Outcome.bind, Outcome.ok_bind, Outcome.pure_eq]
        cases requests start max q.1 b with
        | ub => rfl
        | error => rfl
        | ok q2 => rfl

/-- The slots of all entities. -/
def labels (i : Nat) : List Dict → List (Nat × Str)
  | [] => []
  | d :: ds => (slotKeys d).map (fun k => (i, k)) ++ labels (i + 1) ds

/-- What a successful first pass gives. -/
theorem firstPass_trace {start max : Int} (ents : List Dict) : ∀ (t T : Table) (ents' : List Dict) (i0 : Nat),
    firstPass start max t ents = .ok (T, ents') →
    ∃ ss, requests start max t (ents.flatMap slotNames) = .ok (T, ss) ∧ ents'.length = ents.length ∧
      (∀ (i : Nat) (d e : Dict) (k : Str), ents[i]? = some d → ents'[i]? = some e → Slot d k →
        ∃ (p : Nat) (s : Int), (ents.flatMap slotNames)[p]? = some (nameOf d) ∧ ss[p]? = some s ∧
          (labels i0 ents)[p]? = some (i0 + i, k) ∧ find e k = some (decimal s)) ∧
      ∀ (i : Nat) (d e : Dict) (k : Str), ents[i]? = some d → ents'[i]? = some e → ¬ Slot d k →
        find e k = (find d k).map (escape false) := by
  induction ents with
  | nil =>
    intro t T ents' i0 h
    simp only [firstPass, Outcome.ok.injEq, Prod.mk.injEq] at h
    obtain ⟨rfl, rfl⟩ := h
    exact ⟨[], rfl, rfl, fun i d e k hd => by simp at hd, fun i d e k hd => by simp at hd⟩
  | cons d0 ds ih =>
    intro t T ents' i0 h
    unfold firstPass at h
    rw [Outcome.bind_eq_ok] at h
    obtain ⟨⟨t1, e0⟩, h1, h⟩ := h
    rw [Outcome.bind_eq_ok] at h
    obtain ⟨⟨T', es⟩, h2, h⟩ := h
    simp only [Outcome.pure_eq, Outcome.ok.injEq, Prod.mk.injEq] at h
    obtain ⟨rfl, rfl⟩ := h
    obtain ⟨ss1, hr1, hl1, hk1, ho1⟩ := prepare_trace h1
    obtain ⟨ss2, hr2, hl2, hk2, ho2⟩ := ih t1 T' es (i0 + 1) h2
    refine ⟨ss1 ++ ss2, ?_, by simp [hl2], ?_, ?_⟩
    · rw [List.flatMap_cons, requests_append, hr1]
      simp only [Outcome.bind, hr2]
    · intro i d e k hd he hs
      have hlk : ((slotKeys d0).map (fun k => (i0, k))).length = (slotNames d0).length := by
        rw [List.length_map, slotKeys_length]
      cases i with
      | zero =>
        simp only [List.getElem?_cons_zero, Option.some.injEq] at hd he
        subst hd he
        rw [slot_iff] at hs
        obtain ⟨p, hp⟩ := List.mem_iff_getElem?.mp hs
        have hpl : p < (slotNames d0).length := by
          rw [← slotKeys_length]
          by_contra hne
          rw [List.getElem?_eq_none (by omega)] at hp
          cases hp
        obtain ⟨s, hs1, hf⟩ := hk1 p k hp
        refine ⟨p, s, ?_, ?_, ?_, hf⟩
        · rw [List.flatMap_cons, List.getElem?_append_left hpl, List.getElem?_eq_getElem hpl]
          have := slotNames_get d0 p _ (List.getElem?_eq_getElem hpl)
          rw [this]
        · rw [List.getElem?_append_left (by omega)]
          exact hs1
        · unfold labels
          rw [List.getElem?_append_left (by omega), List.getElem?_map, hp]
          rfl
      | succ i =>
        simp only [List.getElem?_cons_succ] at hd he
        obtain ⟨p, s, hp1, hp2, hp3, hf⟩ := hk2 i d e k hd he hs
        refine ⟨(slotNames d0).length + p, s, ?_, ?_, ?_, hf⟩
        · rw [List.flatMap_cons, List.getElem?_append_right (by omega), Nat.add_sub_cancel_left]
          exact hp1
        · rw [List.getElem?_append_right (by omega), hl1, Nat.add_sub_cancel_left]
          exact hp2
        · unfold labels
          rw [List.getElem?_append_right (by omega), hlk, Nat.add_sub_cancel_left, hp3]
          congr 2
          omega
    · intro i d e k hd he hs
      cases i with
      | zero =>
        simp only [List.getElem?_cons_zero, Option.some.injEq] at hd he
        subst hd he
        exact ho1 k hs
      | succ i =>
        simp only [List.getElem?_cons_succ] at hd he
        exact ho2 i d e k hd he hs

theorem sound_nil (start max : Int) : Sound start max [] :=
  ⟨fun i p h => by simp at h, fun i j p q h => by simp at h⟩

/-- **C133**: whenever light gets past its entities, it has given out the styles as it should. -/
theorem styles_assigned (start max : Int) (ents ents' : List Dict) (T : Table)
    (h : firstPass start max [] ents = .ok (T, ents')) : Assigned start max ents ents' := by
  obtain ⟨ss, hr, hl, hk, _⟩ := firstPass_trace ents [] T ents' 0 h
  have hnil := sound_nil start max
  obtain ⟨hT, _, _, hreq⟩ := requests_ok _ hnil hr
  refine ⟨hl, ?_, ?_⟩
  · intro i d e k hd he hs
    obtain ⟨p, s, hp1, hp2, _, hf⟩ := hk i d e k hd he hs
    obtain ⟨q, hq, _⟩ := hreq p _ s hp1 hp2
    have := hT.style q _ hq
    simp only at this
    exact ⟨s, by omega, this.2, hf⟩
  · intro i j d e d' e' k k' hd he hd' he' hs hs'
    obtain ⟨p, s, hp1, hp2, hp3, hf⟩ := hk i d e k hd he hs
    obtain ⟨q, u, hq1, hq2, hq3, hf'⟩ := hk j d' e' k' hd' he' hs'
    have hsame := requests_same hnil hr hp1 hp2 hq1 hq2
    constructor
    · intro heq
      rw [hf, hf'] at heq
      have : s = u := decimal_injective (Option.some.inj heq)
      rcases hsame.mp this with h1 | h1
      · exact .inl h1
      · right
        subst h1
        rw [hp3] at hq3
        simp only [Option.some.injEq, Prod.mk.injEq] at hq3
        exact ⟨by omega, hq3.2⟩
    · rintro (h1 | ⟨rfl, rfl⟩)
      · rw [hf, hf', hsame.mpr (.inl h1)]
      · rw [he] at he'
        cases he'
        rfl

/-! ### Running out of styles -/

/-- The number of styles that requests add to a table. -/
def fresh (t : Table) (ns : List Str) : Nat :=
  ((ns.filter (· ≠ [])).toFinset \ (t.map Prod.fst).toFinset).card + ns.count []

theorem fresh_cons_known {t : Table} {n : Str} {ns : List Str} (hn : n ≠ []) (hm : n ∈ t.map Prod.fst) :
    fresh t (n :: ns) = fresh t ns := by
  unfold fresh
  rw [List.filter_cons_of_pos (by simp [hn]), List.toFinset_cons,
    Finset.insert_sdiff_of_mem _ (by simpa using hm), List.count_cons_of_ne hn]

theorem fresh_cons_new {t : Table} {n : Str} {ns : List Str} (s : Int) (hm : n ≠ [] → n ∉ t.map Prod.fst) :
    fresh t (n :: ns) = fresh (t ++ [(n, s)]) ns + 1 := by
  unfold fresh
  by_cases hn : n = []
  · subst hn
    rw [List.filter_cons_of_neg (by simp), List.count_cons_self]
    have : (ns.filter (· ≠ [])).toFinset \ (t.map Prod.fst).toFinset =
        (ns.filter (· ≠ [])).toFinset \ ((t ++ [(([] : Str), s)]).map Prod.fst).toFinset := by
      ext x
      simp only [List.map_append, List.map_cons, List.map_nil, List.toFinset_append, Finset.mem_sdiff,
        List.mem_toFinset, List.mem_filter, Finset.mem_union, List.mem_singleton, decide_eq_true_eq]
      tauto
    rw [this]
    omega
  · have hm := hm hn
    rw [List.filter_cons_of_pos (by simp [hn]), List.toFinset_cons,
      Finset.insert_sdiff_of_notMem _ (by simpa using hm), List.count_cons_of_ne hn]
    have : (insert n ((ns.filter (· ≠ [])).toFinset \ (t.map Prod.fst).toFinset)).card =
        ((ns.filter (· ≠ [])).toFinset \ ((t ++ [(n, s)]).map Prod.fst).toFinset).card + 1 := by
      rw [← Finset.card_insert_of_notMem (a := n)]
      · congr 1
        ext x
        simp only [List.map_append, List.map_cons, List.map_nil, List.toFinset_append, Finset.mem_sdiff,
          List.mem_toFinset, Finset.mem_union, List.mem_singleton, Finset.mem_insert]
        tauto
      · simp
    rw [this]
    omega

theorem requests_enough {start max : Int} (ns : List Str) : ∀ (t : Table), Sound start max t →
    (requests start max t ns = .error ∨ ∃ r, requests start max t ns = .ok r) ∧
    ((∃ r, requests start max t ns = .ok r) ↔ fresh t ns = 0 ∨ start + t.length + fresh t ns ≤ max) := by
  induction ns with
  | nil => intro t _; exact ⟨.inr ⟨_, rfl⟩, by simp [fresh, requests]⟩
  | cons n ns ih =>
    intro t ht
    cases hs : styleFor start max t n with
    | ub => exact absurd hs (styleFor_not_ub _ _ _ _)
    | error =>
      have hne : lookup t n = none ∧ max ≤ start + t.length := by
        unfold styleFor at hs
        split at hs
        · cases hs
        · next hl =>
          simp only at hs
          split at hs
          · next hm => exact ⟨hl, hm⟩
          · cases hs
      have he : requests start max t (n :: ns) = .error := by simp [requests, hs]
      refine ⟨.inl he, ?_⟩
      rw [he]
      have hf := fresh_cons_new (ns := ns) 0 (fun hn hm => by
        obtain ⟨p, hp, hpn⟩ := List.mem_map.mp hm
        exact lookup_none hne.1 hn p hp hpn)
      constructor
      · rintro ⟨r, hr⟩; cases hr
      · intro h; exfalso; omega
    | ok r =>
      obtain ⟨s, t1⟩ := r
      obtain ⟨ht1, hc⟩ := styleFor_ok ht hs
      obtain ⟨ih1, ih2⟩ := ih t1 ht1
      have heq : requests start max t (n :: ns) = (requests start max t1 ns).bind fun q => .ok (q.1, s :: q.2) := by
        simp only [requests, hs, Outcome.ok_bind]; rfl
      rw [heq]
      have hok : (∃ r, ((requests start max t1 ns).bind fun q => .ok (q.1, s :: q.2)) = .ok r) ↔
          ∃ r, requests start max t1 ns = .ok r := by
        constructor
        · rintro ⟨r, hr⟩
          cases hq : requests start max t1 ns with
          | ub => rw [hq] at hr; cases hr
          | error => rw [hq] at hr; cases hr
          | ok q => exact ⟨q, rfl⟩
        · rintro ⟨r, hr⟩
          rw [hr]
          exact ⟨_, rfl⟩
      refine ⟨?_, ?_⟩
      · rcases ih1 with h | ⟨r, h⟩
        · left; rw [h]; rfl
        · right; rw [h]; exact ⟨_, rfl⟩
      · rw [hok, ih2]
        rcases hc with ⟨rfl, hn, i, hi⟩ | ⟨rfl, rfl, hnew⟩
        · rw [fresh_cons_known hn (List.mem_map.mpr ⟨_, List.mem_of_getElem? hi, rfl⟩)]
        · have hf := fresh_cons_new (t := t) (n := n) (ns := ns) (start + t.length) (fun hn hm => by
            obtain ⟨p, hp, hpn⟩ := List.mem_map.mp hm
            exact hnew hn p hp hpn)
          have hlt := (ht1.style t.length (n, start + t.length) (by simp)).2
          simp only at hlt
          rw [hf]
          simp only [List.length_append, List.length_singleton, Nat.cast_add, Nat.cast_one]
          omega

theorem firstPass_defined {start max : Int} (ents : List Dict) : ∀ (t : Table), (∀ d ∈ ents, Defined d) →
    ((∃ r, firstPass start max t ents = .ok r) ↔ ∃ r, requests start max t (ents.flatMap slotNames) = .ok r) ∧
    (firstPass start max t ents = .error ↔ requests start max t (ents.flatMap slotNames) = .error) := by
  induction ents with
  | nil => intro t _; simp [firstPass, requests]
  | cons d ds ih =>
    intro t hd
    have ih := fun t => ih t (fun d' h' => hd d' (List.mem_cons_of_mem _ h'))
    unfold firstPass
    rw [prepare_defined _ _ _ _ (hd d (List.mem_cons_self ..)), List.flatMap_cons, requests_append]
    cases requests start max t (slotNames d) with
    | ub => simp [Outcome.bind]
    | error => simp [Outcome.bind]
    | ok r =>
      obtain ⟨h1, h2⟩ := ih r.1
      simp only [Outcome.bind, Outcome.ok_bind]
      cases hf : firstPass start max r.1 ds with
      | ub =>
        rw [hf] at h1 h2
        cases hq : requests start max r.1 (ds.flatMap slotNames) with
        | ub => simp
        | error => exact absurd (h2.mpr hq) (by simp)
        | ok q => exact absurd (h1.mpr ⟨q, hq⟩) (by simp)
      | error =>
        rw [hf] at h2
        rw [h2.mp rfl]
        simp
      | ok q =>
        rw [hf] at h1
        obtain ⟨q', hq'⟩ := h1.mp ⟨q, rfl⟩
        rw [hq']
        simp

/-- **C133**: light stops with an error exactly if more styles are needed than there are; it does not otherwise. -/
theorem styles_enough (start max : Int) (ents : List Dict) (hd : ∀ d ∈ ents, Defined d) :
    ((∃ r, firstPass start max [] ents = .ok r) ↔ needed ents = 0 ∨ start + needed ents ≤ max) ∧
    (firstPass start max [] ents = .error ↔ ¬ (needed ents = 0 ∨ start + needed ents ≤ max)) := by
  obtain ⟨h1, h2⟩ := firstPass_defined (start := start) (max := max) ents [] hd
  obtain ⟨h3, h4⟩ := requests_enough (start := start) (max := max) (ents.flatMap slotNames) [] (sound_nil start max)
  have hn : fresh [] (ents.flatMap slotNames) = needed ents := by
    unfold fresh needed
    rw [List.map_nil, List.toFinset_nil, Finset.sdiff_empty, List.card_toFinset]
  rw [hn] at h4
  simp only [List.length_nil, Nat.cast_zero, Int.add_zero] at h4
  refine ⟨h1.trans h4, ?_⟩
  rw [h2, ← h4]
  constructor
  · rintro h ⟨r, hr⟩
    rw [h] at hr; cases hr
  · intro h
    rcases h3 with h3 | h3
    · exact h3
    · exact absurd h3 h

/-- **C133**: `TargetnameForLightStyle` gives back the name for which a style was given out. -/
theorem name_of_style (start max : Int) (ents ents' : List Dict) (T : Table)
    (h : firstPass start max [] ents = .ok (T, ents')) (i : Nat) (d e : Dict) (k : Str) (s : Int)
    (hd : ents[i]? = some d) (he : ents'[i]? = some e) (hs : Slot d k) (hf : find e k = some (decimal s)) :
    nameFor T s = nameOf d := by
  obtain ⟨ss, hr, hl, hk, _⟩ := firstPass_trace ents [] T ents' 0 h
  obtain ⟨hT, _, _, hreq⟩ := requests_ok _ (sound_nil start max) hr
  obtain ⟨p, u, hp1, hp2, _, hf'⟩ := hk i d e k hd he hs
  rw [hf] at hf'
  have : s = u := decimal_injective (Option.some.inj hf')
  subst this
  obtain ⟨q, hq, _⟩ := hreq p _ s hp1 hp2
  unfold nameFor
  cases hfi : T.find? fun pr => decide (pr.2 = s) with
  | none =>
    exfalso
    rw [List.find?_eq_none] at hfi
    exact hfi _ (List.mem_of_getElem? hq) (by simp)
  | some pr =>
    have h1 := List.find?_some hfi
    simp only [decide_eq_true_eq] at h1
    obtain ⟨q', hq'⟩ := List.mem_iff_getElem?.mp (List.mem_of_find?_eq_some hfi)
    have h2 := (hT.style q' _ hq').1
    have h3 := (hT.style q _ hq).1
    simp only at h3
    have : q = q' := by omega
    subst this
    rw [hq] at hq'
    simp only [Option.some.injEq] at hq'
    rw [← hq']

/-- A world, two lights with the same name, one with another name, and two shadows without a name. -/
def someEntities : List Dict :=
  [[(lit "classname", lit "worldspawn")],
   [(lit "classname", lit "light_torch"), (lit "targetname", lit "hall")],
   [(lit "classname", lit "light"), (lit "targetname", lit "yard"), (lit "style", lit "3")],
   [(lit "classname", lit "light"), (lit "targetname", lit "hall")],
   [(lit "classname", lit "func_door"), (lit "_switchableshadow", lit "1")],
   [(lit "classname", lit "func_door"), (lit "_switchableshadow", lit "1"), (lit "targetname", lit "yard")],
   [(lit "classname", lit "func_wall"), (lit "_switchableshadow", lit " 1 ")]]

example : needed someEntities = 4 ∧ (∀ d ∈ someEntities, Defined d) ∧
    (match firstPass 32 64 [] someEntities with
      | .ok (_, es) => es.map (fun e => (get e (lit "style"), get e (lit "switchshadstyle")))
      | _ => []) =
        [([], []), (lit "32", []), (lit "33", []), (lit "32", []), ([], lit "34"), ([], lit "33"),
         ([], lit "35")] := by
  refine ⟨by decide +kernel, ?_, by decide +kernel⟩
  unfold Defined; decide +kernel

end Verif.Styles
