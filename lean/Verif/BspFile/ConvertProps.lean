import Verif.BspFile.ConvertLemmas

/-!
Property theorems: narrowing conversions (C25), conversion between formats (C26), children of clipnodes (C27), bounding
boxes (C28).
-/

namespace Verif.BspFile

open Verif Verif.Stream

/-! ### C25: narrowing conversions -/

/-- C25: for every two of the standard integer types and every value of the source type, the checked conversion gives
exactly the same value if the destination type has it, and an overflow error otherwise. -/
theorem numeric_cast_exact (dst src : Scalar) (hd : Std dst) (hs : Std src) (v : Int) (h : src.lo ≤ v ∧ v ≤ src.hi) :
    (dst.lo ≤ v ∧ v ≤ dst.hi → numericCast dst src v = .ok v) ∧
    (¬ (dst.lo ≤ v ∧ v ≤ dst.hi) → numericCast dst src v = .error) :=
  numericCast_spec dst src hd hs v h

example : Std u16 ∧ Std i64 ∧ i64.Holds (-1) ∧ ¬ u16.Holds (-1) ∧ numericCast u16 i64 65535 = .ok 65535 ∧
    numericCast u16 i64 (-1) = .error ∧ numericCast i32 u32 4294967295 = .error := by decide +kernel

/-- The limits of the types. -/
theorem limits : [i8, u8, i16, u16, i32, u32, i64, u64].map (fun k => (k.lo, k.hi)) =
    [(-128, 127), (0, 255), (-32768, 32767), (0, 65535), (-2147483648, 2147483647), (0, 4294967295),
      (-9223372036854775808, 9223372036854775807), (0, 18446744073709551615)] := by decide +kernel

/-! ### C27: children of clipnodes -/

/-- C27: a child of a clipnode is either rejected, exactly when it is below -15 or above 0xfff0, or it is restored:
written as a 16-bit number to the file and read back, it converts to the original. -/
theorem clipnode_child_roundtrip (v : Int) :
    (v < -15 ∨ 0xfff0 < v → clipDowncast v = .error) ∧
    (-15 ≤ v ∧ v ≤ 0xfff0 → ∃ w, clipDowncast v = .ok w ∧
      clipUpcast (getScalar true .little i16 (putScalar true .little i16 w)) = v) := by
  constructor
  · intro h; exact (clip_spec v).2 (by omega)
  · intro h
    obtain ⟨w, h1, h2, h3⟩ := (clip_spec v).1 h
    refine ⟨w, h1, ?_⟩
    have : getScalar true .little i16 (putScalar true .little i16 w) = w := by
      show i16.decode (i16.encode w) = w
      exact roundtrip i16 (by decide) w h2
    rw [this, h3]

example : clipDowncast (-2) = .ok (-2) ∧ clipDowncast 40000 = .ok (-25536) ∧ clipUpcast (-25536) = 40000 ∧
    clipDowncast 65521 = .error := by decide +kernel

/-! ### C28: bounding boxes -/

/-- The box of a node (`a = .nodes`) or leaf (`a = .leafs`): the record has the named fields. -/
def BoxContains (f : Family) (h : Bool) (a : Arr) (g r : List Int) : Prop :=
  (∀ name ∈ ["mins0", "mins1", "mins2"], ∃ v w q, Spec.field (Spec.genericNames a) g name = some v ∧
    Spec.field (Spec.fileNames f h a) r name = some w ∧ f32val v = .fin q ∧ (w : Rat) ≤ q) ∧
  (∀ name ∈ ["maxs0", "maxs1", "maxs2"], ∃ v w q, Spec.field (Spec.genericNames a) g name = some v ∧
    Spec.field (Spec.fileNames f h a) r name = some w ∧ f32val v = .fin q ∧ q ≤ (w : Rat))

theorem lookup_of_index : ∀ (names : List String) (r : List Int) (n : String) (i : Nat) (v : Int), names.Nodup →
    names[i]? = some n → r[i]? = some v → Spec.field names r n = some v := by
  intro names
  induction names with
  | nil => intro r n i v _ h; simp at h
  | cons m names ih =>
    intro r n i v hnd hn hv
    cases r with
    | nil => simp at hv
    | cons x r =>
      cases i with
      | zero =>
        simp at hn hv
        subst hn; subst hv
        simp [Spec.field]
      | succ i =>
        simp at hn hv
        have hne : n ≠ m := by
          intro e; subst e
          exact (List.nodup_cons.mp hnd).1 (List.mem_of_getElem? hn)
        have := ih r n i v (List.nodup_cons.mp hnd).2 hn hv
        unfold Spec.field at this ⊢
        rw [List.zip_cons_cons, List.lookup_cons]
        have hb : (n == m) = false := by simpa using hne
        rw [hb]
        exact this

/-- The stored fields by name. -/
theorem stored_by_name (f : Family) (h : Bool) (a : Arr) (g r : List Int) (hg : FieldsHold (genericTypes a) g)
    (hc : convRecord (down f h a) g = .ok r) (i j : Nat) (n : String) (hi : (Spec.genericNames a)[i]? = some n)
    (hj : (Spec.fileNames f h a)[j]? = some n) :
    ∃ gt ft v w, (genericTypes a)[i]? = some gt ∧ (fileTypes f h a)[j]? = some ft ∧
      Spec.field (Spec.genericNames a) g n = some v ∧ Spec.field (Spec.fileNames f h a) r n = some w ∧
      Spec.Stored (Spec.kindActual f a n) gt ft v w := by
  have hchk := tables_down f (mem_families f) h (by cases h <;> simp) a (mem_arrs a)
  have hlen : (down f h a).length = (fileTypes f h a).length ∧ (Spec.fileNames f h a).length = (fileTypes f h a).length ∧
      (Spec.genericNames a).length = (genericTypes a).length ∧ (Spec.genericNames a).Nodup ∧ (Spec.fileNames f h a).Nodup := by
    unfold checkDown at hchk
    simp only [Bool.and_eq_true, decide_eq_true_eq] at hchk
    exact hchk.1
  obtain ⟨l1, l2, l3, nd1, nd2⟩ := hlen
  obtain ⟨hs, -⟩ := (down_sound hchk g hg).1 r hc
  have bi := (List.getElem?_eq_some_iff.mp hi).1
  have bj := (List.getElem?_eq_some_iff.mp hj).1
  have hgt : (genericTypes a)[i]? = some ((genericTypes a)[i]'(by omega)) := List.getElem?_eq_getElem _
  have hft : (fileTypes f h a)[j]? = some ((fileTypes f h a)[j]'(by omega)) := List.getElem?_eq_getElem _
  obtain ⟨v, hv, -⟩ := ((fieldsHold_iff _ g).mp hg).2 i _ hgt
  obtain ⟨w, hw, hst⟩ := hs i j n _ _ v hi hj hgt hft hv
  exact ⟨_, _, v, w, hgt, hft, lookup_of_index _ g n i v nd1 hi hv, lookup_of_index _ r n j w nd2 hj hw, hst⟩

/-- The families whose node and leaf boxes are integers, and where the fields of the box are. -/
theorem box_fields : ∀ f ∈ [Family.bsp29, .rmq, .q2], ∀ h ∈ [true, false], ∀ a ∈ [Arr.nodes, .leafs],
    ∀ n ∈ ["mins0", "mins1", "mins2", "maxs0", "maxs1", "maxs2"],
    ∃ i ∈ List.range 20, ∃ j ∈ List.range 20, (Spec.genericNames a)[i]? = some n ∧ (Spec.fileNames f h a)[j]? = some n ∧
      (genericTypes a)[i]? = some f32 ∧ (fileTypes f h a)[j]? = some i16 := by decide +kernel

theorem box_end (f : Family) (hf : f = .bsp29 ∨ f = .rmq ∨ f = .q2) (h : Bool) (a : Arr) (ha : a = .nodes ∨ a = .leafs)
    (g r : List Int) (hg : FieldsHold (genericTypes a) g) (hc : convRecord (down f h a) g = .ok r) (n : String)
    (hn : n ∈ ["mins0", "mins1", "mins2", "maxs0", "maxs1", "maxs2"]) :
    ∃ v w, Spec.field (Spec.genericNames a) g n = some v ∧ Spec.field (Spec.fileNames f h a) r n = some w ∧
      Spec.Stored (Spec.kindActual f a n) f32 i16 v w := by
  obtain ⟨i, -, j, -, h1, h2, h3, h4⟩ := box_fields f (by rcases hf with rfl | rfl | rfl <;> simp) h
    (by cases h <;> simp) a (by rcases ha with rfl | rfl <;> simp) n hn
  obtain ⟨gt, ft, v, w, e1, e2, e3, e4, e5⟩ := stored_by_name f h a g r hg hc i j n h1 h2
  rw [h3] at e1; rw [h4] at e2
  cases e1; cases e2
  exact ⟨v, w, e3, e4, e5⟩

theorem stored_low {v w : Int} (h : Spec.Stored .low f32 i16 v w) : ∃ q, f32val v = .fin q ∧ (w : Rat) ≤ q := by
  unfold Spec.Stored at h
  rw [if_neg (by decide)] at h
  obtain ⟨q, h1, rfl⟩ := h
  exact ⟨q, h1, Int.floor_le q⟩

theorem stored_high {v w : Int} (h : Spec.Stored .high f32 i16 v w) : ∃ q, f32val v = .fin q ∧ q ≤ (w : Rat) := by
  unfold Spec.Stored at h
  rw [if_neg (by decide)] at h
  obtain ⟨q, h1, rfl⟩ := h
  exact ⟨q, h1, Int.le_ceil q⟩

/-- C28 (partial): when a node or a leaf is converted to a format with integer boxes, the box in the file contains the
box of the generic record, for every box. Missing: Quake II leafs, see `q2_leaf_box_shrinks`. -/
theorem file_box_contains_partial (f : Family) (hf : f = .bsp29 ∨ f = .rmq ∨ f = .q2) (h : Bool) (a : Arr)
    (ha : a = .nodes ∨ a = .leafs) (hq2 : ¬ (f = .q2 ∧ a = .leafs)) (g r : List Int)
    (hg : FieldsHold (genericTypes a) g) (hc : convRecord (down f h a) g = .ok r) : BoxContains f h a g r := by
  constructor
  · intro n hn
    obtain ⟨v, w, h1, h2, h3⟩ := box_end f hf h a ha g r hg hc n (by simp at hn ⊢; tauto)
    have hk : Spec.kindActual f a n = .low := by
      unfold Spec.kindActual Spec.kindOf
      rw [if_neg (by tauto), if_pos hn]
    rw [hk] at h3
    obtain ⟨q, h4, h5⟩ := stored_low h3
    exact ⟨v, w, q, h1, h2, h4, h5⟩
  · intro n hn
    obtain ⟨v, w, h1, h2, h3⟩ := box_end f hf h a ha g r hg hc n (by simp at hn ⊢; tauto)
    have hk : Spec.kindActual f a n = .high := by
      unfold Spec.kindActual Spec.kindOf
      rw [if_neg (by tauto), if_neg (by simp at hn ⊢; rcases hn with rfl | rfl | rfl <;> decide), if_pos hn]
    rw [hk] at h3
    obtain ⟨q, h4, h5⟩ := stored_high h3
    exact ⟨v, w, q, h1, h2, h4, h5⟩

/-- A Quake II leaf with the box from (0, 0, 0) to (0.5, 64.5, 8). -/
def leafExample : List Int :=
  [1, -1, 0, 0, 0, 0x3f000000, 0x42810000, 0x41000000, 3, 2, 0, 0, 0, 0, 7, 1, 0, 0]

/-- C28 fails for Quake II leafs: the upper end of the box is rounded down. -/
theorem q2_leaf_box_shrinks : FieldsHold (genericTypes .leafs) leafExample ∧
    f32val 0x42810000 = .fin (129 / 2) ∧
    convRecord (down .q2 false .leafs) leafExample = .ok [1, 7, 1, 0, 0, 0, 0, 64, 8, 3, 2, 0, 0] := by
  refine ⟨by decide +kernel, by decide +kernel, by decide +kernel⟩

/-- C28 (partial): of a Quake II leaf the lower end is right and the upper end is less than one unit too low. -/
theorem q2_leaf_box_partial (h : Bool) (g r : List Int) (hg : FieldsHold (genericTypes .leafs) g)
    (hc : convRecord (down .q2 h .leafs) g = .ok r) :
    (∀ name ∈ ["mins0", "mins1", "mins2"], ∃ v w q, Spec.field (Spec.genericNames .leafs) g name = some v ∧
      Spec.field (Spec.fileNames .q2 h .leafs) r name = some w ∧ f32val v = .fin q ∧ (w : Rat) ≤ q) ∧
    (∀ name ∈ ["maxs0", "maxs1", "maxs2"], ∃ v w q, Spec.field (Spec.genericNames .leafs) g name = some v ∧
      Spec.field (Spec.fileNames .q2 h .leafs) r name = some w ∧ f32val v = .fin q ∧ q < (w : Rat) + 1) := by
  constructor
  · intro n hn
    obtain ⟨v, w, h1, h2, h3⟩ := box_end .q2 (by simp) h .leafs (by simp) g r hg hc n (by simp at hn ⊢; tauto)
    have hk : Spec.kindActual .q2 .leafs n = .low := by
      simp at hn
      rcases hn with rfl | rfl | rfl <;> decide
    rw [hk] at h3
    obtain ⟨q, h4, h5⟩ := stored_low h3
    exact ⟨v, w, q, h1, h2, h4, h5⟩
  · intro n hn
    obtain ⟨v, w, h1, h2, h3⟩ := box_end .q2 (by simp) h .leafs (by simp) g r hg hc n (by simp at hn ⊢; tauto)
    have hk : Spec.kindActual .q2 .leafs n = .low := by
      simp at hn
      rcases hn with rfl | rfl | rfl <;> decide
    rw [hk] at h3
    unfold Spec.Stored at h3
    rw [if_neg (by decide)] at h3
    obtain ⟨q, h4, rfl⟩ := h3
    exact ⟨v, _, q, h1, h2, h4, Int.lt_floor_add_one q⟩

/-- A node whose box is not integral. -/
def nodeExample : List Int :=
  [5, -3, 40000, 0xbf000000, 0, 0, 0x3f000000, 0x42810000, 0x41000000, 100, 2]

example : FieldsHold (genericTypes .nodes) nodeExample ∧
    convRecord (down .rmq false .nodes) nodeExample = .ok [5, -3, 40000, -1, 0, 0, 1, 65, 8, 100, 2] ∧
    convRecord (down .bsp29 false .nodes) nodeExample = .error := by decide +kernel

/-! ### C26: conversion of a BSP -/

/-- All arrays of a BSP have records of the generic types. -/
def GenericTyped (arrays : Arr → List (List Int)) : Prop := ∀ a, ∀ g ∈ arrays a, FieldsHold (genericTypes a) g

/-- All arrays of a BSP have records of the types of the format, and arrays that it does not have are empty. -/
def FileTyped (v : Version) (arrays : Arr → List (List Int)) : Prop :=
  (∀ a, ∀ r ∈ arrays a, FieldsHold (fileTypes v.family v.hexen2 a) r) ∧ ∀ a, ¬ Spec.has v.family a → arrays a = []

/-- Everything in the arrays that the format has fits. -/
def AllFit (v : Version) (arrays : Arr → List (List Int)) : Prop :=
  ∀ a, Spec.has v.family a → ∀ g ∈ arrays a,
    RecordFits (Spec.kindActual v.family a) (Spec.genericNames a) (genericTypes a)
      (Spec.fileNames v.family v.hexen2 a) (fileTypes v.family v.hexen2 a) g

theorem convertArrays_ok (tbl : Arr → List FieldSrc) (src : Arr → List (List Int)) : ∀ (l : List Arr), l.Nodup →
    ∀ out, convertArrays tbl src l = .ok out →
    (∀ a ∈ l, copyArray (tbl a) (src a) = .ok (out a)) ∧ ∀ a, a ∉ l → out a = [] := by
  intro l
  induction l with
  | nil => intro _ out h; simp [convertArrays] at h; subst h; simp
  | cons a as ih =>
    intro hnd out h
    simp only [convertArrays, Outcome.bind_eq_ok, Outcome.pure_eq, Outcome.ok.injEq] at h
    obtain ⟨x, hx, g, hg, rfl⟩ := h
    obtain ⟨i1, i2⟩ := ih (List.nodup_cons.mp hnd).2 g hg
    constructor
    · intro b hb
      by_cases e : b = a
      · subst e; simpa using hx
      · simp only [e, if_false]
        exact i1 b (by simpa [e] using hb)
    · intro b hb
      simp only [List.mem_cons, not_or] at hb
      simp only [hb.1, if_false]
      exact i2 b hb.2

theorem convertArrays_exists (tbl : Arr → List FieldSrc) (src : Arr → List (List Int)) : ∀ (l : List Arr),
    (∀ a ∈ l, ∃ x, copyArray (tbl a) (src a) = .ok x) → ∃ out, convertArrays tbl src l = .ok out := by
  intro l
  induction l with
  | nil => intro _; exact ⟨_, rfl⟩
  | cons a as ih =>
    intro h
    obtain ⟨x, hx⟩ := h a (by simp)
    obtain ⟨g, hg⟩ := ih (fun b hb => h b (by simp [hb]))
    exact ⟨fun b => if b = a then x else g b, by simp [convertArrays, hx, hg]⟩

theorem convertArrays_no_ub (tbl : Arr → List FieldSrc) (src : Arr → List (List Int)) : ∀ (l : List Arr),
    (∀ a ∈ l, copyArray (tbl a) (src a) ≠ .ub) → convertArrays tbl src l ≠ .ub := by
  intro l
  induction l with
  | nil => intro _ h; cases h
  | cons a as ih =>
    intro h hc
    have h1 := h a (by simp)
    have h2 := ih (fun b hb => h b (by simp [hb]))
    cases e : copyArray (tbl a) (src a) with
    | ub => exact h1 e
    | error => simp [convertArrays, e] at hc
    | ok b =>
      cases e2 : convertArrays tbl src as with
      | ub => exact h2 e2
      | error => simp [convertArrays, e, e2] at hc
      | ok bs => simp [convertArrays, e, e2] at hc

theorem has_order (f : Family) (a : Arr) : Spec.has f a = true ↔ a ∈ arrayOrder f := by
  cases f <;> cases a <;> decide

theorem order_nodup (f : Family) : (arrayOrder f).Nodup := by cases f <;> decide

/-- C26: converting a generic BSP to a file format is all or nothing: if every stored field of every record of every
array fits its field in the file, it succeeds and each record of the result stores the record at the same place;
otherwise, unless a box has a NaN, it fails and the BSP is unchanged. -/
theorem convert_all_or_nothing {β : Type} (d : BspData β) (hd : d.version = none) (ht : GenericTyped d.bsp.arrays)
    (v : Version) :
    (AllFit v d.bsp.arrays → ∃ d', convertBsp d (some v) = .ok (true, d') ∧ d'.version = some v ∧
      d'.bsp.rest = d.bsp.rest ∧
      (∀ a, Spec.has v.family a → (d'.bsp.arrays a).length = (d.bsp.arrays a).length ∧
        ∀ (i : Nat) (g : List Int), (d.bsp.arrays a)[i]? = some g → ∃ r, (d'.bsp.arrays a)[i]? = some r ∧
          RecordStored (Spec.kindActual v.family a) (Spec.genericNames a) (genericTypes a)
            (Spec.fileNames v.family v.hexen2 a) (fileTypes v.family v.hexen2 a) g r)) ∧
    (¬ AllFit v d.bsp.arrays → (∀ a, ∀ g ∈ d.bsp.arrays a, ∀ x ∈ g, f32val x ≠ .nan) →
      convertBsp d (some v) = .ok (false, d)) := by
  have tbl : ∀ a, checkDown (Spec.kindActual v.family a) (Spec.genericNames a) (genericTypes a)
      (Spec.fileNames v.family v.hexen2 a) (fileTypes v.family v.hexen2 a) (down v.family v.hexen2 a) = true := fun a =>
    tables_down v.family (mem_families _) v.hexen2 (by cases v.hexen2 <;> simp) a (mem_arrs a)
  have hne : ¬ (d.version = some v) := by rw [hd]; simp
  constructor
  · intro hfit
    obtain ⟨out, hout⟩ := convertArrays_exists (down v.family v.hexen2) d.bsp.arrays (arrayOrder v.family) (by
      intro a ha
      refine mapO_exists _ _ (fun g hg => ?_)
      exact (down_sound (tbl a) g (ht a g hg)).2.1.mpr (hfit a ((has_order _ _).mpr ha) g hg))
    refine ⟨⟨some v, ⟨out, d.bsp.rest⟩⟩, ?_, rfl, rfl, ?_⟩
    · unfold convertBsp
      rw [if_neg hne, hd]
      simp only [hout]
    · intro a ha
      have h1 := (convertArrays_ok _ _ _ (order_nodup _) out hout).1 a ((has_order _ _).mp ha)
      refine ⟨mapO_length _ _ _ h1, fun i g hg => ?_⟩
      obtain ⟨r, hr, hrun⟩ := mapO_get _ _ _ h1 i g hg
      exact ⟨r, hr, ((down_sound (tbl a) g (ht a g (List.mem_of_getElem? hg))).1 r hrun).1⟩
  · intro hfit hnan
    unfold convertBsp
    rw [if_neg hne, hd]
    cases e : convertArrays (down v.family v.hexen2) d.bsp.arrays (arrayOrder v.family) with
    | error => simp [e]
    | ub =>
      exfalso
      refine convertArrays_no_ub _ _ _ (fun a ha => ?_) e
      refine mapO_no_ub _ _ (fun g hg => ?_)
      exact (down_sound (tbl a) g (ht a g hg)).2.2 (hnan a g hg)
    | ok out =>
      exfalso
      apply hfit
      intro a ha g hg
      have h1 := (convertArrays_ok _ _ _ (order_nodup _) out e).1 a ((has_order _ _).mp ha)
      obtain ⟨r, -, hrun⟩ := mapO_all_ok _ _ _ h1 g hg
      exact (down_sound (tbl a) g (ht a g hg)).2.1.mp ⟨r, hrun⟩

/-- C26: loading a file format into the generic form always succeeds, and converting back to the same format gives
exactly the BSP that was loaded, for every BSP. -/
theorem convert_there_and_back {β : Type} (v : Version) (d : BspData β) (hd : d.version = some v)
    (ht : FileTyped v d.bsp.arrays) :
    ∃ d', convertBsp d none = .ok (true, d') ∧ d'.version = none ∧ GenericTyped d'.bsp.arrays ∧
      convertBsp d' (some v) = .ok (true, d) := by
  have tbl : ∀ a, checkInverse (fileTypes v.family v.hexen2 a) (genericTypes a) (up v.family v.hexen2 a)
      (down v.family v.hexen2 a) = true := fun a =>
    tables_inverse v.family (mem_families _) v.hexen2 (by cases v.hexen2 <;> simp) a (mem_arrs a)
  obtain ⟨out, hout⟩ := convertArrays_exists (up v.family v.hexen2) d.bsp.arrays (arrayOrder v.family) (by
    intro a _
    refine mapO_exists _ _ (fun r hr => ?_)
    obtain ⟨g, hg, -, -⟩ := checkInverse_sound (tbl a) r (ht.1 a r hr)
    exact ⟨g, hg⟩)
  obtain ⟨o1, o2⟩ := convertArrays_ok _ _ _ (order_nodup _) out hout
  refine ⟨⟨none, ⟨out, d.bsp.rest⟩⟩, ?_, rfl, ?_, ?_⟩
  · unfold convertBsp
    rw [if_neg (by rw [hd]; simp), hd]
    simp [hout]
  · intro a g hg
    by_cases ha : a ∈ arrayOrder v.family
    · obtain ⟨r, hr, hrun⟩ := mapO_mem_result _ _ _ (o1 a ha) g hg
      obtain ⟨g', hg', ht', -⟩ := checkInverse_sound (tbl a) r (ht.1 a r hr)
      rw [hrun] at hg'; cases hg'
      exact ht'
    · simp only [o2 a ha] at hg
      cases hg
  · have back : ∀ a ∈ arrayOrder v.family, copyArray (down v.family v.hexen2 a) (out a) = .ok (d.bsp.arrays a) := by
      intro a ha
      refine mapO_of_get _ _ _ (mapO_length _ _ _ (o1 a ha)).symm (fun i g hg => ?_)
      have hl := mapO_length _ _ _ (o1 a ha)
      have hlt := (List.getElem?_eq_some_iff.mp hg).1
      have hr : (d.bsp.arrays a)[i]? = some ((d.bsp.arrays a)[i]'(by omega)) := List.getElem?_eq_getElem _
      obtain ⟨g', hg', hrun⟩ := mapO_get _ _ _ (o1 a ha) i _ hr
      rw [hg] at hg'; cases hg'
      obtain ⟨g'', h1, -, h3⟩ := checkInverse_sound (tbl a) _ (ht.1 a _ (List.mem_of_getElem? hr))
      rw [hrun] at h1; cases h1
      exact ⟨_, hr, h3⟩
    obtain ⟨out', hout'⟩ := convertArrays_exists (down v.family v.hexen2) out (arrayOrder v.family)
      (fun a ha => ⟨_, back a ha⟩)
    obtain ⟨p1, p2⟩ := convertArrays_ok _ _ _ (order_nodup _) out' hout'
    have : out' = d.bsp.arrays := by
      funext a
      by_cases ha : a ∈ arrayOrder v.family
      · have := p1 a ha
        rw [back a ha] at this
        exact (Outcome.ok.inj this).symm
      · rw [p2 a ha, ht.2 a (mt (has_order _ _).mp ha)]
    unfold convertBsp
    rw [if_neg (by simp)]
    simp only [hout', this]
    cases d with
    | mk ver bsp =>
      simp only at hd
      subst hd
      rfl

theorem intCast_floor_fin {w : Int} (h : i16.Holds w) : f32val (f32ofInt w) = .fin w := by
  obtain ⟨h1, h2⟩ := h
  simp only [Scalar.lo, Scalar.hi, if_true] at h1 h2
  norm_num at h1 h2
  exact f32val_f32ofInt w (by norm_num; omega)

theorem restored_of_stored (k : Spec.Kind) (g t : Scalar) (c c' : Conv) (hc : convOK k g t c' = true)
    (hu : upOK t g c = true) (hp : pairOK t g c c' = true) (v w x : Int) (hs : Spec.Stored k g t v w) (hw : t.Holds w)
    (hx : c.run w = .ok x) : Spec.Restored k g t v x := by
  unfold Spec.Stored at hs
  unfold Spec.Restored
  have same : (c = .copy ∨ ∃ d s, c = .cast d s) → x = w := by
    rintro (rfl | ⟨d, s, rfl⟩)
    · simp only [Conv.run] at hx; cases hx; rfl
    · simp only [upOK, within, Bool.and_eq_true, decide_eq_true_eq] at hu
      obtain ⟨⟨rfl, rfl, hd, hs'⟩, h1, h2⟩ := hu
      have hh : d.Holds w := ⟨le_trans h1 hw.1, le_trans hw.2 h2⟩
      rw [Conv.run, (numericCast_spec d s hd hs' w hw).1 hh] at hx
      cases hx; rfl
  by_cases e : g = t
  · rw [if_pos e] at hs ⊢
    subst e
    cases c with
    | copy => rw [same (.inl rfl), hs]
    | cast d s => rw [same (.inr ⟨d, s, rfl⟩), hs]
    | toFloat => simp only [upOK, decide_eq_true_eq] at hu; obtain ⟨rfl, h⟩ := hu; exact absurd h (by decide)
    | clipUp => simp only [upOK, decide_eq_true_eq] at hu; obtain ⟨rfl, h⟩ := hu; exact absurd h (by decide)
    | mins => simp [upOK] at hu
    | maxs => simp [upOK] at hu
    | clipDown => simp [upOK] at hu
  · rw [if_neg e] at hs ⊢
    cases c' with
    | copy => simp only [convOK, decide_eq_true_eq] at hc; exact absurd hc e
    | cast d s =>
      simp only [convOK, decide_eq_true_eq] at hc
      have hk : k = .plain := by rcases hc.2.2.2.2 with h | h; exacts [h, absurd h e]
      subst hk
      cases c with
      | copy => simp only at hs ⊢; rw [same (.inl rfl), hs]
      | cast d' s' => simp only at hs ⊢; rw [same (.inr ⟨_, _, rfl⟩), hs]
      | _ => simp [pairOK] at hp
    | mins =>
      simp only [convOK, decide_eq_true_eq] at hc
      obtain ⟨rfl, rfl, rfl⟩ := hc
      cases c with
      | toFloat =>
        simp only [Conv.run] at hx
        cases hx
        obtain ⟨q, h1, rfl⟩ := hs
        exact ⟨q, h1, intCast_floor_fin hw⟩
      | _ => simp [pairOK] at hp
    | maxs =>
      simp only [convOK, decide_eq_true_eq] at hc
      obtain ⟨rfl, rfl, rfl⟩ := hc
      cases c with
      | toFloat =>
        simp only [Conv.run] at hx
        cases hx
        obtain ⟨q, h1, rfl⟩ := hs
        exact ⟨q, h1, intCast_floor_fin hw⟩
      | _ => simp [pairOK] at hp
    | clipDown =>
      simp only [convOK, decide_eq_true_eq] at hc
      obtain ⟨rfl, rfl, rfl⟩ := hc
      cases c with
      | clipUp =>
        simp only [Conv.run] at hx
        cases hx
        simp only [childOf_eq] at hs
        exact hs
      | _ => simp [pairOK] at hp
    | toFloat => simp [convOK] at hc
    | clipUp => simp [convOK] at hc

/-- C26: if a generic record is converted to a file format, converting the result back restores every field that the
format stores; only the ends of boxes are rounded when the format has integer boxes. -/
theorem convert_and_load_back (f : Family) (h : Bool) (a : Arr) (g r : List Int) (hg : FieldsHold (genericTypes a) g)
    (hc : convRecord (down f h a) g = .ok r) :
    ∃ g', convRecord (up f h a) r = .ok g' ∧
      ∀ (i j : Nat) (n : String) (gt ft : Scalar) (v : Int), (Spec.genericNames a)[i]? = some n →
        (Spec.fileNames f h a)[j]? = some n → (genericTypes a)[i]? = some gt → (fileTypes f h a)[j]? = some ft →
        g[i]? = some v → ∃ x, g'[i]? = some x ∧ Spec.Restored (Spec.kindActual f a n) gt ft v x := by
  have hchk := tables_down f (mem_families f) h (by cases h <;> simp) a (mem_arrs a)
  have hinv := tables_inverse f (mem_families f) h (by cases h <;> simp) a (mem_arrs a)
  obtain ⟨hs, hf⟩ := (down_sound hchk g hg).1 r hc
  obtain ⟨g', hup, hgt', -⟩ := checkInverse_sound hinv r hf
  refine ⟨g', hup, fun i j n gt ft v hi hj hgt hft hv => ?_⟩
  obtain ⟨i', c', n', gt', e1, e2, e3, e4, e5⟩ := checkDown_entry hchk hft
  rw [hj] at e2; cases e2
  have hnd : (Spec.genericNames a).Nodup := by
    unfold checkDown at hchk
    simp only [Bool.and_eq_true, decide_eq_true_eq] at hchk
    exact hchk.1.2.2.2.1
  have := nodup_index hnd hi e3
  subst this
  rw [hgt] at e4; cases e4
  obtain ⟨w, hw, hst⟩ := hs i j n gt ft v hi hj hgt hft hv
  have hwt : ft.Holds w := by
    obtain ⟨w', hw', hh⟩ := ((fieldsHold_iff _ r).mp hf).2 j ft hft
    rw [hw] at hw'; cases hw'; exact hh
  unfold checkInverse at hinv
  simp only [Bool.and_eq_true, decide_eq_true_eq, List.all_eq_true, List.mem_range] at hinv
  obtain ⟨⟨-, hupE⟩, hpairE⟩ := hinv
  have hp := hpairE j (List.getElem?_eq_some_iff.mp hft).1
  have hu := hupE i (List.getElem?_eq_some_iff.mp hgt).1
  unfold checkPairEntry at hp
  rw [e1, hft] at hp
  simp only at hp
  split at hp
  · rename_i j' c gt'' e6 e7
    rw [hgt] at e7; cases e7
    simp only [Bool.and_eq_true, decide_eq_true_eq] at hp
    obtain ⟨rfl, hp⟩ := hp
    unfold checkUpEntry at hu
    rw [e6, hgt] at hu
    simp only [hft] at hu
    obtain ⟨x, hx, hrun⟩ := mapO_get _ _ _ hup i _ e6
    simp only [FieldSrc.run, readAt_some hw, Outcome.ok_bind] at hrun
    exact ⟨x, hx, restored_of_stored _ gt ft c c' e5 hu hp v w x hst hwt hrun⟩
  · cases hp

/-- C26: a NaN in a box is not rejected: its conversion to an integer is undefined. -/
theorem box_nan_undefined : f32val 0x7fc00000 = .nan ∧
    convRecord (down .rmq false .nodes) [5, -3, 4, 0x7fc00000, 0, 0, 0, 0, 0, 0, 0] = .ub := by
  constructor <;> decide +kernel

/-- C26: an unsupported conversion (between two file formats) fails and leaves the BSP unchanged. -/
theorem convert_unsupported {β : Type} (v w : Version) (h : v ≠ w) (d : BspData β) (hd : d.version = some v) :
    convertBsp d (some w) = .ok (false, d) := by
  unfold convertBsp
  rw [if_neg (by rw [hd]; simpa using h), hd]

/-- The hypotheses are met: a BSP with one node that fits the 32-bit format but not the 16-bit one. -/
def bspExample : Bsp Unit := ⟨fun a => if a = .nodes then [nodeExample] else [], ()⟩

example : (match convertBsp ⟨none, bspExample⟩ (some ⟨.rmq, false⟩) with
      | .ok (b, d) => b && decide (d.bsp.arrays .nodes = [[5, -3, 40000, -1, 0, 0, 1, 65, 8, 100, 2]])
      | _ => false) = true ∧
    (match convertBsp ⟨none, bspExample⟩ (some ⟨.bsp29, false⟩) with
      | .ok (b, d) => !b && decide (d.bsp.arrays .nodes = [nodeExample])
      | _ => false) = true := by decide +kernel

end Verif.BspFile
