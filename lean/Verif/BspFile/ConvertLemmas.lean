import Verif.BspFile.ConvertSpec

namespace Verif.BspFile

open Verif Verif.Stream

/-! ### `mapO` -/

theorem mapO_length {α β : Type} (f : α → Outcome β) : ∀ (l : List α) (r : List β), mapO f l = .ok r → r.length = l.length := by
  intro l
  induction l with
  | nil => intro r h; simp [mapO] at h; subst h; rfl
  | cons a as ih =>
    intro r h
    simp only [mapO, Outcome.bind_eq_ok, Outcome.pure_eq, Outcome.ok.injEq] at h
    obtain ⟨b, -, bs, hbs, rfl⟩ := h
    simp [ih bs hbs]

theorem mapO_get {α β : Type} (f : α → Outcome β) : ∀ (l : List α) (r : List β), mapO f l = .ok r →
    ∀ (i : Nat) (a : α), l[i]? = some a → ∃ b, r[i]? = some b ∧ f a = .ok b := by
  intro l
  induction l with
  | nil => intro r h i a hi; simp at hi
  | cons a as ih =>
    intro r h i x hi
    simp only [mapO, Outcome.bind_eq_ok, Outcome.pure_eq, Outcome.ok.injEq] at h
    obtain ⟨b, hb, bs, hbs, rfl⟩ := h
    cases i with
    | zero => simp at hi; subst hi; exact ⟨b, by simp, hb⟩
    | succ i => simpa using ih bs hbs i x (by simpa using hi)

theorem mapO_of_get {α β : Type} (f : α → Outcome β) : ∀ (l : List α) (r : List β), r.length = l.length →
    (∀ (i : Nat) (a : α), l[i]? = some a → ∃ b, r[i]? = some b ∧ f a = .ok b) → mapO f l = .ok r := by
  intro l
  induction l with
  | nil => intro r h _; simp at h; subst h; rfl
  | cons a as ih =>
    intro r h hg
    cases r with
    | nil => simp at h
    | cons b bs =>
      obtain ⟨b', hb', hf⟩ := hg 0 a (by simp)
      simp at hb'; subst hb'
      have := ih bs (by simpa using h) (fun i x hi => by simpa using hg (i + 1) x (by simpa using hi))
      simp [mapO, hf, this]

theorem mapO_exists {α β : Type} (f : α → Outcome β) : ∀ (l : List α), (∀ a ∈ l, ∃ b, f a = .ok b) → ∃ r, mapO f l = .ok r := by
  intro l
  induction l with
  | nil => intro _; exact ⟨[], rfl⟩
  | cons a as ih =>
    intro h
    obtain ⟨b, hb⟩ := h a (by simp)
    obtain ⟨bs, hbs⟩ := ih (fun x hx => h x (by simp [hx]))
    exact ⟨b :: bs, by simp [mapO, hb, hbs]⟩

theorem mapO_no_ub {α β : Type} (f : α → Outcome β) : ∀ (l : List α), (∀ a ∈ l, f a ≠ .ub) → mapO f l ≠ .ub := by
  intro l
  induction l with
  | nil => intro _ h; cases h
  | cons a as ih =>
    intro h hc
    have h1 := h a (by simp)
    have h2 := ih (fun x hx => h x (by simp [hx]))
    cases e : f a with
    | ub => exact h1 e
    | error => simp [mapO, e] at hc
    | ok b =>
      cases e2 : mapO f as with
      | ub => exact h2 e2
      | error => simp [mapO, e, e2] at hc
      | ok bs => simp [mapO, e, e2] at hc

theorem mapO_all_ok {α β : Type} (f : α → Outcome β) (l : List α) (r : List β) (h : mapO f l = .ok r) :
    ∀ a ∈ l, ∃ b ∈ r, f a = .ok b := by
  intro a ha
  obtain ⟨i, hi⟩ := List.getElem?_of_mem ha
  obtain ⟨b, hb, hf⟩ := mapO_get f l r h i a hi
  exact ⟨b, List.mem_of_getElem? hb, hf⟩

theorem mapO_mem_result {α β : Type} (f : α → Outcome β) (l : List α) (r : List β) (h : mapO f l = .ok r) :
    ∀ b ∈ r, ∃ a ∈ l, f a = .ok b := by
  intro b hb
  obtain ⟨i, hi⟩ := List.getElem?_of_mem hb
  have hl := mapO_length f l r h
  have hlt : i < l.length := by
    have := (List.getElem?_eq_some_iff.mp hi).1
    omega
  obtain ⟨b', hb', hf⟩ := mapO_get f l r h i _ (List.getElem?_eq_getElem hlt)
  rw [hi] at hb'; cases hb'
  exact ⟨_, List.getElem_mem hlt, hf⟩

/-! ### Typed records -/

theorem fieldsHold_iff (ks : List Scalar) : ∀ vs : List Int, FieldsHold ks vs ↔
    vs.length = ks.length ∧ ∀ (i : Nat) (k : Scalar), ks[i]? = some k → ∃ v, vs[i]? = some v ∧ k.Holds v := by
  induction ks with
  | nil =>
    intro vs
    cases vs <;> simp [FieldsHold]
  | cons k ks ih =>
    intro vs
    cases vs with
    | nil => simp [FieldsHold]
    | cons v vs =>
      simp only [FieldsHold, ih vs, List.length_cons]
      constructor
      · rintro ⟨h1, h2, h3⟩
        refine ⟨by omega, fun i k' hi => ?_⟩
        cases i with
        | zero => simp at hi; subst hi; exact ⟨v, by simp, h1⟩
        | succ i => simpa using h3 i k' (by simpa using hi)
      · rintro ⟨h2, h3⟩
        refine ⟨?_, by omega, fun i k' hi => by simpa using h3 (i + 1) k' (by simpa using hi)⟩
        obtain ⟨v', hv', hh⟩ := h3 0 k (by simp)
        simp at hv'; subst hv'; exact hh

/-! ### Conversion of one field -/

/-- The conversion is one for a field of the given meaning and types. -/
def convOK (k : Spec.Kind) (g t : Scalar) : Conv → Bool
  | .copy => decide (g = t)
  | .cast d s => decide (d = t ∧ s = g ∧ Std d ∧ Std s ∧ (k = .plain ∨ g = t))
  | .mins => decide (g = f32 ∧ t = i16 ∧ k = .low)
  | .maxs => decide (g = f32 ∧ t = i16 ∧ k = .high)
  | .clipDown => decide (g = i32 ∧ t = i16 ∧ k = .child)
  | _ => false

theorem childOf_eq (w : Int) : Spec.childOf w = clipUpcast w := by
  unfold Spec.childOf clipUpcast
  simp [Scalar.wrap]

theorem convOK_sound (k : Spec.Kind) (g t : Scalar) (c : Conv) (hc : convOK k g t c = true) (v : Int) (hv : g.Holds v) :
    (∀ w, c.run v = .ok w → Spec.Stored k g t v w ∧ t.Holds w) ∧
    (Spec.Fits k g t v → ∃ w, c.run v = .ok w) ∧
    (c.run v = .ub → f32val v = .nan) := by
  cases c with
  | copy =>
    simp only [convOK, decide_eq_true_eq] at hc
    subst hc
    refine ⟨fun w h => ?_, fun _ => ⟨v, rfl⟩, fun h => by cases h⟩
    cases h
    exact ⟨by simp [Spec.Stored], hv⟩
  | cast d s =>
    simp only [convOK, decide_eq_true_eq] at hc
    obtain ⟨rfl, rfl, hd, hs, hk⟩ := hc
    obtain ⟨n1, n2⟩ := numericCast_spec d s hd hs v hv
    have hst : ∀ w, Spec.Stored k s d v w ↔ w = v := by
      intro w
      unfold Spec.Stored
      rcases hk with rfl | rfl
      · split <;> rfl
      · simp
    refine ⟨fun w h => ?_, ?_, fun h => ?_⟩
    · by_cases hh : d.Holds v
      · rw [Conv.run, n1 hh] at h
        cases h
        exact ⟨(hst v).2 rfl, hh⟩
      · rw [Conv.run, n2 hh] at h; cases h
    · rintro ⟨w, h1, h2⟩
      rw [hst] at h1
      subst h1
      exact ⟨w, n1 h2⟩
    · by_cases hh : d.Holds v
      · rw [Conv.run, n1 hh] at h; cases h
      · rw [Conv.run, n2 hh] at h; cases h
  | mins =>
    simp only [convOK, decide_eq_true_eq] at hc
    obtain ⟨rfl, rfl, rfl⟩ := hc
    have hst : ∀ w, Spec.Stored .low f32 i16 v w ↔ ∃ q, f32val v = .fin q ∧ w = ⌊q⌋ := by
      intro w; unfold Spec.Stored; rw [if_neg (by decide)]
    refine ⟨fun w h => ?_, ?_, fun h => ?_⟩
    · obtain ⟨q, h1, h2, h3⟩ := minsCast_ok v w h
      exact ⟨(hst w).2 ⟨q, h1, h2⟩, h3⟩
    · rintro ⟨w, h1, h2⟩
      obtain ⟨q, h3, rfl⟩ := (hst w).1 h1
      refine ⟨⌊q⌋, ?_⟩
      simp only [Conv.run, minsCast, h3, Flt.floor]
      exact (castI16_int _).1 h2
    · simp only [Conv.run, minsCast] at h
      cases e : f32val v with
      | nan => rfl
      | inf => rw [e] at h; simp [Flt.floor, castI16_nonfin] at h
      | ninf => rw [e] at h; simp [Flt.floor, castI16_nonfin] at h
      | fin q =>
        rw [e] at h
        simp only [Flt.floor] at h
        by_cases hh : i16.Holds ⌊q⌋
        · rw [(castI16_int _).1 hh] at h; cases h
        · rw [(castI16_int _).2 hh] at h; cases h
  | maxs =>
    simp only [convOK, decide_eq_true_eq] at hc
    obtain ⟨rfl, rfl, rfl⟩ := hc
    have hst : ∀ w, Spec.Stored .high f32 i16 v w ↔ ∃ q, f32val v = .fin q ∧ w = ⌈q⌉ := by
      intro w; unfold Spec.Stored; rw [if_neg (by decide)]
    refine ⟨fun w h => ?_, ?_, fun h => ?_⟩
    · obtain ⟨q, h1, h2, h3⟩ := maxsCast_ok v w h
      exact ⟨(hst w).2 ⟨q, h1, h2⟩, h3⟩
    · rintro ⟨w, h1, h2⟩
      obtain ⟨q, h3, rfl⟩ := (hst w).1 h1
      refine ⟨⌈q⌉, ?_⟩
      simp only [Conv.run, maxsCast, h3, Flt.ceil]
      exact (castI16_int _).1 h2
    · simp only [Conv.run, maxsCast] at h
      cases e : f32val v with
      | nan => rfl
      | inf => rw [e] at h; simp [Flt.ceil, castI16_nonfin] at h
      | ninf => rw [e] at h; simp [Flt.ceil, castI16_nonfin] at h
      | fin q =>
        rw [e] at h
        simp only [Flt.ceil] at h
        by_cases hh : i16.Holds ⌈q⌉
        · rw [(castI16_int _).1 hh] at h; cases h
        · rw [(castI16_int _).2 hh] at h; cases h
  | toFloat => simp [convOK] at hc
  | clipUp => simp [convOK] at hc
  | clipDown =>
    simp only [convOK, decide_eq_true_eq] at hc
    obtain ⟨rfl, rfl, rfl⟩ := hc
    have hst : ∀ w, Spec.Stored .child i32 i16 v w ↔ clipUpcast w = v := by
      intro w; unfold Spec.Stored; rw [if_neg (by decide)]; simp only [childOf_eq]
    refine ⟨fun w h => ?_, ?_, fun h => ?_⟩
    · by_cases hh : -15 ≤ v ∧ v ≤ 0xFFF0
      · obtain ⟨w', h1, h2, h3⟩ := (clip_spec v).1 hh
        simp only [Conv.run, h1] at h
        cases h
        exact ⟨(hst _).2 h3, h2⟩
      · simp only [Conv.run, (clip_spec v).2 hh] at h; cases h
    · rintro ⟨w, h1, h2⟩
      rw [hst] at h1
      have := (clip_up_down w h2).1
      rw [h1] at this
      exact ⟨w, this⟩
    · by_cases hh : -15 ≤ v ∧ v ≤ 0xFFF0
      · obtain ⟨w', h1, h2, h3⟩ := (clip_spec v).1 hh
        simp only [Conv.run, h1] at h; cases h
      · simp only [Conv.run, (clip_spec v).2 hh] at h; cases h

/-! ### Tables from the generic form -/

/-- Entry `j` of the table stores the field of the same name, with a conversion for its meaning and types. -/
def checkEntry (kind : String → Spec.Kind) (gn : List String) (gt : List Scalar) (fn : List String) (ft : List Scalar)
    (tbl : List FieldSrc) (j : Nat) : Bool :=
  match tbl[j]?, fn[j]?, ft[j]? with
  | some (.fld i c), some n, some t =>
    decide (gn[i]? = some n) && (match gt[i]? with
      | some g => convOK (kind n) g t c
      | none => false)
  | _, _, _ => false

def checkDown (kind : String → Spec.Kind) (gn : List String) (gt : List Scalar) (fn : List String) (ft : List Scalar)
    (tbl : List FieldSrc) : Bool :=
  decide (tbl.length = ft.length ∧ fn.length = ft.length ∧ gn.length = gt.length ∧ gn.Nodup ∧ fn.Nodup) &&
  (List.range ft.length).all (checkEntry kind gn gt fn ft tbl)

theorem checkDown_entry {kind gn gt fn ft tbl} (h : checkDown kind gn gt fn ft tbl = true) {j : Nat} {t : Scalar}
    (hj : ft[j]? = some t) :
    ∃ i c n g, tbl[j]? = some (.fld i c) ∧ fn[j]? = some n ∧ gn[i]? = some n ∧ gt[i]? = some g ∧
      convOK (kind n) g t c = true := by
  unfold checkDown at h
  simp only [Bool.and_eq_true, List.all_eq_true, List.mem_range] at h
  have hlt := (List.getElem?_eq_some_iff.mp hj).1
  have := h.2 j hlt
  unfold checkEntry at this
  rw [hj] at this
  split at this
  · rename_i i c n t' e1 e2 e3
    cases e3
    simp only [Bool.and_eq_true, decide_eq_true_eq] at this
    obtain ⟨h1, h2⟩ := this
    split at h2
    · rename_i g hg
      exact ⟨i, c, n, g, e1, e2, h1, hg, h2⟩
    · cases h2
  · cases this

theorem readAt_some {l : List Int} {i : Nat} {v : Int} (h : l[i]? = some v) : Outcome.readAt l i = .ok v := by
  simp [Outcome.readAt, h]

theorem nodup_index {l : List String} (h : l.Nodup) {i j : Nat} {n : String} (hi : l[i]? = some n)
    (hj : l[j]? = some n) : i = j := by
  obtain ⟨h1, e1⟩ := List.getElem?_eq_some_iff.mp hi
  obtain ⟨h2, e2⟩ := List.getElem?_eq_some_iff.mp hj
  exact (List.getElem_inj h).mp (e1.trans e2.symm)

theorem down_sound {kind gn gt fn ft tbl} (hchk : checkDown kind gn gt fn ft tbl = true) (g : List Int)
    (hg : FieldsHold gt g) :
    (∀ r, convRecord tbl g = .ok r → RecordStored kind gn gt fn ft g r ∧ FieldsHold ft r) ∧
    ((∃ r, convRecord tbl g = .ok r) ↔ RecordFits kind gn gt fn ft g) ∧
    ((∀ v ∈ g, f32val v ≠ .nan) → convRecord tbl g ≠ .ub) := by
  have hlen : tbl.length = ft.length ∧ fn.length = ft.length ∧ gn.length = gt.length ∧ gn.Nodup ∧ fn.Nodup := by
    unfold checkDown at hchk
    simp only [Bool.and_eq_true, decide_eq_true_eq] at hchk
    exact hchk.1
  obtain ⟨l1, l2, l3, nd1, nd2⟩ := hlen
  have hg' := (fieldsHold_iff gt g).mp hg
  have entry : ∀ (j : Nat) (t : Scalar), ft[j]? = some t → ∃ i c n a v, tbl[j]? = some (.fld i c) ∧ fn[j]? = some n ∧
      gn[i]? = some n ∧ gt[i]? = some a ∧ convOK (kind n) a t c = true ∧ g[i]? = some v ∧ a.Holds v ∧
      FieldSrc.run g (.fld i c) = c.run v := by
    intro j t hj
    obtain ⟨i, c, n, a, e1, e2, e3, e4, e5⟩ := checkDown_entry hchk hj
    obtain ⟨v, hv, hh⟩ := hg'.2 i a e4
    exact ⟨i, c, n, a, v, e1, e2, e3, e4, e5, hv, hh, by simp [FieldSrc.run, readAt_some hv]⟩
  have okFits : ∀ r, convRecord tbl g = .ok r → RecordStored kind gn gt fn ft g r ∧ FieldsHold ft r := by
    intro r hr
    constructor
    · intro i j n a t v hi hj ha ht hv
      obtain ⟨i', c, n', a', v', e1, e2, e3, e4, e5, e6, e7, e8⟩ := entry j t ht
      rw [hj] at e2; cases e2
      have := nodup_index nd1 hi e3
      subst this
      rw [ha] at e4; cases e4
      rw [hv] at e6; cases e6
      obtain ⟨w, hw, hrun⟩ := mapO_get _ _ _ hr j _ e1
      rw [e8] at hrun
      exact ⟨w, hw, ((convOK_sound _ _ _ _ e5 v e7).1 w hrun).1⟩
    · rw [fieldsHold_iff]
      refine ⟨by rw [mapO_length _ _ _ hr, l1], fun j t ht => ?_⟩
      obtain ⟨i', c, n', a', v', e1, e2, e3, e4, e5, e6, e7, e8⟩ := entry j t ht
      obtain ⟨w, hw, hrun⟩ := mapO_get _ _ _ hr j _ e1
      rw [e8] at hrun
      exact ⟨w, hw, ((convOK_sound _ _ _ _ e5 v' e7).1 w hrun).2⟩
  refine ⟨okFits, ⟨?_, ?_⟩, ?_⟩
  · rintro ⟨r, hr⟩ i j n a t v hi hj ha ht hv
    obtain ⟨hs, hf⟩ := okFits r hr
    obtain ⟨w, hw, hst⟩ := hs i j n a t v hi hj ha ht hv
    obtain ⟨w', hw', hh⟩ := ((fieldsHold_iff ft r).mp hf).2 j t ht
    rw [hw] at hw'; cases hw'
    exact ⟨w, hst, hh⟩
  · intro hfit
    refine mapO_exists _ _ (fun x hx => ?_)
    obtain ⟨j, hj⟩ := List.getElem?_of_mem hx
    have hlt := (List.getElem?_eq_some_iff.mp hj).1
    obtain ⟨i, c, n, a, v, e1, e2, e3, e4, e5, e6, e7, e8⟩ := entry j _ (List.getElem?_eq_getElem (by omega))
    rw [hj] at e1; cases e1
    rw [e8]
    exact (convOK_sound _ _ _ _ e5 v e7).2.1 (hfit i j n a _ v e3 e2 e4 (List.getElem?_eq_getElem (by omega)) e6)
  · intro hn
    refine mapO_no_ub _ _ (fun x hx => ?_)
    obtain ⟨j, hj⟩ := List.getElem?_of_mem hx
    have hlt := (List.getElem?_eq_some_iff.mp hj).1
    obtain ⟨i, c, n, a, v, e1, e2, e3, e4, e5, e6, e7, e8⟩ := entry j _ (List.getElem?_eq_getElem (by omega))
    rw [hj] at e1; cases e1
    rw [e8]
    intro hub
    exact hn v (List.mem_of_getElem? e6) ((convOK_sound _ _ _ _ e5 v e7).2.2 hub)

/-! ### There and back -/

/-- Every value of type `t` is one of type `g`. -/
def within (t g : Scalar) : Bool := decide (g.lo ≤ t.lo ∧ t.hi ≤ g.hi)

/-- The conversion takes every value of type `t` to a value of type `g`. -/
def upOK (t g : Scalar) : Conv → Bool
  | .copy => within t g
  | .cast d s => decide (s = t ∧ d = g ∧ Std d ∧ Std s) && within t g
  | .toFloat => decide (t = i16 ∧ g = f32)
  | .clipUp => decide (t = i16 ∧ g = i32)
  | _ => false

theorem f32ofInt_holds (n : Int) (h : i16.Holds n) : f32.Holds (f32ofInt n) := by
  obtain ⟨h1, h2⟩ := h
  simp only [Scalar.lo, Scalar.hi, if_true] at h1 h2
  norm_num at h1 h2
  unfold f32ofInt
  by_cases hz : n = 0
  · subst hz; decide
  · rw [if_neg hz]
    dsimp only
    have ha : n.natAbs ≠ 0 := by omega
    have l2 : n.natAbs < 2 ^ (n.natAbs.log2 + 1) := Nat.lt_log2_self
    have l3 : n.natAbs.log2 < 16 := (Nat.log2_lt ha).mpr (by norm_num; omega)
    generalize hE : n.natAbs.log2 = e at *
    have p2 : 2 ^ (e + 1) * 2 ^ (23 - e) = (2 ^ 24 : Nat) := by rw [← Nat.pow_add]; congr 1; omega
    have m2 : n.natAbs * 2 ^ (23 - e) < 2 ^ 24 := by
      rw [← p2]; exact Nat.mul_lt_mul_of_pos_right l2 (Nat.pow_pos (by omega))
    generalize n.natAbs * 2 ^ (23 - e) = M at *
    norm_num at m2
    simp only [Scalar.Holds, Scalar.lo, Scalar.hi, Bool.false_eq_true, if_false]
    norm_num
    split <;> constructor <;> omega

theorem upOK_sound (t g : Scalar) (c : Conv) (h : upOK t g c = true) (v : Int) (hv : t.Holds v) :
    ∃ w, c.run v = .ok w ∧ g.Holds w := by
  cases c with
  | copy =>
    simp only [upOK, within, decide_eq_true_eq] at h
    exact ⟨v, rfl, le_trans h.1 hv.1, le_trans hv.2 h.2⟩
  | cast d s =>
    simp only [upOK, within, Bool.and_eq_true, decide_eq_true_eq] at h
    obtain ⟨⟨rfl, rfl, hd, hs⟩, h1, h2⟩ := h
    have hh : d.Holds v := ⟨le_trans h1 hv.1, le_trans hv.2 h2⟩
    exact ⟨v, (numericCast_spec d s hd hs v hv).1 hh, hh⟩
  | toFloat =>
    simp only [upOK, decide_eq_true_eq] at h
    obtain ⟨rfl, rfl⟩ := h
    exact ⟨_, rfl, f32ofInt_holds v hv⟩
  | clipUp =>
    simp only [upOK, decide_eq_true_eq] at h
    obtain ⟨rfl, rfl⟩ := h
    exact ⟨_, rfl, (clip_up_down v hv).2⟩
  | mins => simp [upOK] at h
  | maxs => simp [upOK] at h
  | clipDown => simp [upOK] at h

/-- The second conversion undoes the first on values of type `t`. -/
def pairOK (t g : Scalar) : Conv → Conv → Bool
  | .copy, .copy => true
  | .copy, .cast d s => decide (d = t ∧ s = g ∧ Std d ∧ Std s)
  | .cast _ _, .cast d s => decide (d = t ∧ s = g ∧ Std d ∧ Std s)
  | .toFloat, .mins => decide (t = i16)
  | .toFloat, .maxs => decide (t = i16)
  | .clipUp, .clipDown => decide (t = i16)
  | _, _ => false

theorem pairOK_sound (t g : Scalar) (c c' : Conv) (hu : upOK t g c = true) (h : pairOK t g c c' = true) (v : Int)
    (hv : t.Holds v) : ∃ w, c.run v = .ok w ∧ c'.run w = .ok v := by
  obtain ⟨w, hw, hgw⟩ := upOK_sound t g c hu v hv
  refine ⟨w, hw, ?_⟩
  cases c with
  | copy =>
    cases hw
    cases c' with
    | copy => rfl
    | cast d s =>
      simp only [pairOK, decide_eq_true_eq] at h
      obtain ⟨rfl, rfl, hd, hs⟩ := h
      exact (numericCast_spec d s hd hs v hgw).1 hv
    | _ => simp [pairOK] at h
  | cast d s =>
    simp only [upOK, within, Bool.and_eq_true, decide_eq_true_eq] at hu
    obtain ⟨⟨rfl, rfl, hd, hs⟩, h1, h2⟩ := hu
    have hh : d.Holds v := ⟨le_trans h1 hv.1, le_trans hv.2 h2⟩
    rw [Conv.run, (numericCast_spec d s hd hs v hv).1 hh] at hw
    cases hw
    cases c' with
    | cast d' s' =>
      simp only [pairOK, decide_eq_true_eq] at h
      obtain ⟨rfl, rfl, hd', hs'⟩ := h
      exact (numericCast_spec d' s' hd' hs' v hh).1 hv
    | _ => simp [pairOK] at h
  | toFloat =>
    cases hw
    cases c' with
    | mins =>
      simp only [pairOK, decide_eq_true_eq] at h
      subst h
      exact minsCast_ofInt v hv
    | maxs =>
      simp only [pairOK, decide_eq_true_eq] at h
      subst h
      exact maxsCast_ofInt v hv
    | _ => simp [pairOK] at h
  | clipUp =>
    cases hw
    cases c' with
    | clipDown =>
      simp only [pairOK, decide_eq_true_eq] at h
      subst h
      exact (clip_up_down v hv).1
    | _ => simp [pairOK] at h
  | mins => simp [upOK] at hu
  | maxs => simp [upOK] at hu
  | clipDown => simp [upOK] at hu

def checkUpEntry (ft gt : List Scalar) (upT : List FieldSrc) (i : Nat) : Bool :=
  match upT[i]?, gt[i]? with
  | some (.fld j c), some g => (match ft[j]? with
    | some t => upOK t g c
    | none => false)
  | some (.const v), some g => decide (g.Holds v)
  | _, _ => false

def checkPairEntry (ft gt : List Scalar) (upT downT : List FieldSrc) (j : Nat) : Bool :=
  match downT[j]?, ft[j]? with
  | some (.fld i c'), some t => (match upT[i]?, gt[i]? with
    | some (.fld j' c), some g => decide (j' = j) && pairOK t g c c'
    | _, _ => false)
  | _, _ => false

def checkInverse (ft gt : List Scalar) (upT downT : List FieldSrc) : Bool :=
  decide (upT.length = gt.length ∧ downT.length = ft.length) &&
  (List.range gt.length).all (checkUpEntry ft gt upT) &&
  (List.range ft.length).all (checkPairEntry ft gt upT downT)

theorem checkInverse_sound {ft gt upT downT} (h : checkInverse ft gt upT downT = true) (r : List Int)
    (hr : FieldsHold ft r) :
    ∃ g, convRecord upT r = .ok g ∧ FieldsHold gt g ∧ convRecord downT g = .ok r := by
  unfold checkInverse at h
  simp only [Bool.and_eq_true, decide_eq_true_eq, List.all_eq_true, List.mem_range] at h
  obtain ⟨⟨⟨l1, l2⟩, hup⟩, hpair⟩ := h
  have hr' := (fieldsHold_iff ft r).mp hr
  have upEntry : ∀ (i : Nat) (a : Scalar), gt[i]? = some a → ∃ x w, upT[i]? = some x ∧ x.run r = .ok w ∧ a.Holds w := by
    intro i a ha
    have := hup i (List.getElem?_eq_some_iff.mp ha).1
    unfold checkUpEntry at this
    rw [ha] at this
    split at this
    · rename_i j c g e1 e2
      cases e2
      split at this
      · rename_i t ht
        obtain ⟨v, hv, hh⟩ := hr'.2 j t ht
        obtain ⟨w, hw, hhw⟩ := upOK_sound t a c this v hh
        exact ⟨_, w, e1, by simp [FieldSrc.run, readAt_some hv, hw], hhw⟩
      · cases this
    · rename_i v g e1 e2
      cases e2
      simp only [decide_eq_true_eq] at this
      exact ⟨_, v, e1, rfl, this⟩
    · cases this
  obtain ⟨g, hg⟩ : ∃ g, convRecord upT r = .ok g := by
    refine mapO_exists _ _ (fun x hx => ?_)
    obtain ⟨i, hi⟩ := List.getElem?_of_mem hx
    have hlt := (List.getElem?_eq_some_iff.mp hi).1
    obtain ⟨x', w, e1, e2, -⟩ := upEntry i _ (List.getElem?_eq_getElem (by omega))
    rw [hi] at e1; cases e1
    exact ⟨w, e2⟩
  refine ⟨g, hg, ?_, ?_⟩
  · rw [fieldsHold_iff]
    refine ⟨by rw [mapO_length _ _ _ hg, l1], fun i a ha => ?_⟩
    obtain ⟨x, w, e1, e2, e3⟩ := upEntry i a ha
    obtain ⟨w', hw', hrun⟩ := mapO_get _ _ _ hg i x e1
    rw [e2] at hrun; cases hrun
    exact ⟨w, hw', e3⟩
  · refine mapO_of_get _ _ _ (by rw [hr'.1, l2]) (fun j x hx => ?_)
    have hlt := (List.getElem?_eq_some_iff.mp hx).1
    have hj : j < ft.length := by omega
    have := hpair j hj
    unfold checkPairEntry at this
    rw [hx, List.getElem?_eq_getElem hj] at this
    split at this
    · rename_i i c' t e1 e2
      cases e1; cases e2
      split at this
      · rename_i j' c a e3 e4
        simp only [Bool.and_eq_true, decide_eq_true_eq] at this
        obtain ⟨rfl, hp⟩ := this
        obtain ⟨v, hv, hh⟩ := hr'.2 j' _ (List.getElem?_eq_getElem hj)
        have hu : upOK (ft[j']) a c = true := by
          have := hup i (List.getElem?_eq_some_iff.mp e4).1
          unfold checkUpEntry at this
          rw [e3, e4] at this
          simp only [List.getElem?_eq_getElem hj] at this
          exact this
        obtain ⟨w, hw, hback⟩ := pairOK_sound _ a c c' hu hp v hh
        obtain ⟨w', hw', hrun⟩ := mapO_get _ _ _ hg i _ e3
        simp only [FieldSrc.run, readAt_some hv, Outcome.ok_bind, hw] at hrun
        cases hrun
        exact ⟨v, hv, by simp [FieldSrc.run, readAt_some hw', hback]⟩
      · cases this
    · cases this

/-! ### The tables of the program -/

def families : List Family := [.bsp29, .rmq, .bsp2, .q2, .qbism]

def arrs : List Arr :=
  [.nodes, .texinfo, .faces, .clipnodes, .leafs, .leaffaces, .leafbrushes, .edges, .models, .brushsides]

theorem mem_families (f : Family) : f ∈ families := by cases f <;> decide

theorem mem_arrs (a : Arr) : a ∈ arrs := by cases a <;> decide

theorem tables_down : ∀ f ∈ families, ∀ h ∈ [true, false], ∀ a ∈ arrs,
    checkDown (Spec.kindActual f a) (Spec.genericNames a) (genericTypes a) (Spec.fileNames f h a) (fileTypes f h a)
      (down f h a) = true := by decide +kernel

theorem tables_inverse : ∀ f ∈ families, ∀ h ∈ [true, false], ∀ a ∈ arrs,
    checkInverse (fileTypes f h a) (genericTypes a) (up f h a) (down f h a) = true := by decide +kernel

end Verif.BspFile
