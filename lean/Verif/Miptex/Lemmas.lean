import Verif.Miptex.Spec
import Verif.Cmdlib.Lemmas
import Mathlib.Tactic.Common
import Mathlib.Tactic.SplitIfs
import Mathlib.Tactic.IntervalCases

namespace Verif.Miptex

open Verif.Cmdlib (Str cstr iequalC)
open Spec

theorem lower_eq (b : UInt8) : Cmdlib.toLower b = lower b := by
  unfold Cmdlib.toLower lower
  simp

theorem iequalC_fold {a b : Str} (ha : 0 ∉ a) (hb : 0 ∉ b) : iequalC a b = true ↔ fold a = fold b := by
  unfold iequalC fold
  rw [Cmdlib.cstr_of_noNul a (fun c hc e => ha (e ▸ hc)), Cmdlib.cstr_of_noNul b (fun c hc e => hb (e ▸ hc)), beq_iff_eq,
    Cmdlib.strcasecmp_zero _ _ (fun c hc e => ha (e ▸ hc)) (fun c hc e => hb (e ▸ hc))]
  simp [funext lower_eq]

theorem frameOf_mem {c : UInt8} {n : Nat} {base : UInt8} (h : frameOf c = some (n, base)) {i : Nat} (hi : i < n) :
    (Below (base + UInt8.ofNat i) c ∨ (48 ≤ base + UInt8.ofNat i ∧ base + UInt8.ofNat i < 48 + c ∧ c ≤ 9)) ∧
      base + UInt8.ofNat i ≠ 0 ∧ base + UInt8.ofNat i ≠ 47 := by
  have hc := c.toNat_lt
  simp only [frameOf, Below, lower, UInt8.le_iff_toNat_le, UInt8.lt_iff_toNat_lt, ← UInt8.toNat_inj, ne_eq] at h ⊢
  split_ifs at h <;> simp only [Option.some.injEq, Prod.mk.injEq] at h <;> obtain ⟨rfl, rfl⟩ := h <;>
    split_ifs <;> simp_all [UInt8.toNat_sub, UInt8.toNat_add] <;> omega

theorem frameOf_below {b c : UInt8} (h : Below b c) : ∃ n base, frameOf c = some (n, base) ∧
    ∃ i < n, lower (base + UInt8.ofNat i) = lower b := by
  have hb := b.toNat_lt
  have hc := c.toNat_lt
  rcases h with h | h
  · refine ⟨(c - 48).toNat, 48, ?_, b.toNat - 48, ?_, ?_⟩
    · simp only [UInt8.le_iff_toNat_le, UInt8.lt_iff_toNat_lt] at h
      simp only [frameOf, UInt8.le_iff_toNat_le]
      split_ifs <;> simp_all <;> omega
    · simp only [UInt8.le_iff_toNat_le, UInt8.lt_iff_toNat_lt] at h
      simp [UInt8.toNat_sub] at h ⊢
      omega
    · congr 1
      simp only [UInt8.le_iff_toNat_le, UInt8.lt_iff_toNat_lt] at h
      rw [← UInt8.toNat_inj]
      simp [UInt8.toNat_add] at h ⊢
      omega
  · refine ⟨(lower c).toNat - 97, 65, ?_, (lower b).toNat - 97, ?_, ?_⟩
    · simp only [lower, UInt8.le_iff_toNat_le, UInt8.lt_iff_toNat_lt] at h ⊢
      simp only [frameOf, UInt8.le_iff_toNat_le]
      split_ifs at h ⊢ <;> simp [UInt8.toNat_sub, UInt8.toNat_add] at * <;> omega
    · simp only [UInt8.le_iff_toNat_le, UInt8.lt_iff_toNat_lt] at h
      simp at h
      omega
    · simp only [lower, UInt8.le_iff_toNat_le, UInt8.lt_iff_toNat_lt, ← UInt8.toNat_inj] at h ⊢
      split_ifs at h ⊢ <;> simp_all [UInt8.toNat_add] <;> omega

theorem frame_of_frame {c : UInt8} {n : Nat} {base : UInt8} (h : frameOf c = some (n, base)) {i : Nat} (hi : i < n)
    {b : UInt8} (hb : Below b (base + UInt8.ofNat i)) : ∃ k < n, lower (base + UInt8.ofNat k) = lower b := by
  have hcb : (base = 48 ∨ base = 65) ∧ n ≤ 10 := by
    have hc := c.toNat_lt
    simp only [frameOf, UInt8.le_iff_toNat_le] at h
    split_ifs at h <;> simp only [Option.some.injEq, Prod.mk.injEq] at h <;> obtain ⟨rfl, rfl⟩ := h <;>
      simp_all [UInt8.toNat_sub] <;> omega
  obtain ⟨n', base', h', k, hk, e⟩ := frameOf_below hb
  have : base' = base ∧ n' ≤ i := by
    have hbb := b.toNat_lt
    rcases hcb.1 with rfl | rfl <;>
      (simp only [frameOf, UInt8.le_iff_toNat_le] at h'
       split_ifs at h' <;> simp only [Option.some.injEq, Prod.mk.injEq] at h' <;> obtain ⟨rfl, rfl⟩ := h' <;>
        simp_all [UInt8.toNat_sub, UInt8.toNat_add] <;> omega)
  exact ⟨k, by omega, this.1 ▸ e⟩

/-- The names are C strings without path, and none occurs twice. -/
structure Good (tbl : List Str) : Prop where
  clean : ∀ n ∈ tbl, 0 ∉ n ∧ 47 ∉ n
  unique : Spec.Unique tbl

theorem good_push {tbl : List Str} (h : Good tbl) {f : Str} (h0 : 0 ∉ f) (h47 : 47 ∉ f)
    (hn : fold f ∉ tbl.map fold) : Good (tbl ++ [f]) := by
  refine ⟨fun n hm => ?_, ?_⟩
  · rcases List.mem_append.mp hm with hm | hm
    · exact h.clean n hm
    · rw [List.mem_singleton.mp hm]; exact ⟨h0, h47⟩
  · unfold Spec.Unique
    rw [List.map_append, List.nodup_append]
    refine ⟨h.unique, by simp, ?_⟩
    intro a ha b hb e
    simp only [List.map_cons, List.map_nil, List.mem_singleton] at hb
    exact hn (hb ▸ e ▸ ha)

theorem any_fold {tbl : List Str} (h : Good tbl) {f : Str} (h0 : 0 ∉ f) :
    tbl.any (iequalC f) = true ↔ fold f ∈ tbl.map fold := by
  rw [List.any_eq_true, List.mem_map]
  constructor
  · rintro ⟨x, hx, e⟩
    exact ⟨x, hx, ((iequalC_fold h0 (h.clean x hx).1).mp e).symm⟩
  · rintro ⟨x, hx, e⟩
    exact ⟨x, hx, (iequalC_fold h0 (h.clean x hx).1).mpr e.symm⟩

/-- The name of a frame. -/
theorem frame_name {name : Str} (h1 : name.head? = some 43) {n : Nat} {base : UInt8}
    (h2 : frameOf (name.getD 1 0) = some (n, base)) {i : Nat} (hi : i < n) :
    ∃ c rest, name = 43 :: c :: rest ∧ frameOf c = some (n, base) ∧
      ∀ b, (name.take 15).set 1 b = 43 :: b :: rest.take 13 := by
  match name, h1 with
  | [a], h1 =>
    simp [frameOf] at h2
    omega
  | a :: c :: rest, h1 =>
    simp only [List.head?_cons, Option.some.injEq] at h1
    subst h1
    exact ⟨c, rest, rfl, by simpa using h2, fun b => by simp⟩

theorem foldl_frames {name : Str} (hz : 0 ∉ name) (hs : 47 ∉ name) (h1 : name.head? = some 43) {n : Nat} {base : UInt8}
    (h2 : frameOf (name.getD 1 0) = some (n, base)) (l : List Nat) (hl : ∀ i ∈ l, i < n) (tbl : List Str) (h : Good tbl) :
    Good (l.foldl (addFrame name base) tbl) ∧ tbl <+: l.foldl (addFrame name base) tbl ∧
      (∀ m ∈ l.foldl (addFrame name base) tbl, m ∈ tbl ∨ ∃ i ∈ l, m = (name.take 15).set 1 (base + UInt8.ofNat i)) ∧
      ∀ i ∈ l, fold ((name.take 15).set 1 (base + UInt8.ofNat i)) ∈ (l.foldl (addFrame name base) tbl).map fold := by
  induction l generalizing tbl with
  | nil => exact ⟨h, List.prefix_refl _, fun m hm => Or.inl hm, by simp⟩
  | cons i l ih =>
    rw [List.foldl_cons]
    have hi := hl i (by simp)
    obtain ⟨c, rest, rfl, hc, hset⟩ := frame_name h1 h2 hi
    obtain ⟨-, hb0, hb47⟩ := frameOf_mem hc hi
    have hf0 : 0 ∉ (List.take 15 (43 :: c :: rest)).set 1 (base + UInt8.ofNat i) := by
      rw [hset]
      simp only [List.mem_cons, not_or] at hz ⊢
      exact ⟨hz.1, fun e => hb0 e.symm, fun hm => hz.2.2 (List.mem_of_mem_take hm)⟩
    have hf47 : 47 ∉ (List.take 15 (43 :: c :: rest)).set 1 (base + UInt8.ofNat i) := by
      rw [hset]
      simp only [List.mem_cons, not_or] at hs ⊢
      exact ⟨hs.1, fun e => hb47 e.symm, fun hm => hs.2.2 (List.mem_of_mem_take hm)⟩
    have step : Good (addFrame (43 :: c :: rest) base tbl i) ∧ tbl <+: addFrame (43 :: c :: rest) base tbl i ∧
        (∀ m ∈ addFrame (43 :: c :: rest) base tbl i,
          m ∈ tbl ∨ m = (List.take 15 (43 :: c :: rest)).set 1 (base + UInt8.ofNat i)) ∧
        fold ((List.take 15 (43 :: c :: rest)).set 1 (base + UInt8.ofNat i)) ∈
          (addFrame (43 :: c :: rest) base tbl i).map fold := by
      unfold addFrame
      by_cases ha : tbl.any (iequalC ((List.take 15 (43 :: c :: rest)).set 1 (base + UInt8.ofNat i))) = true
      · simp only [ha, if_true]
        exact ⟨h, List.prefix_refl _, fun m hm => Or.inl hm, (any_fold h hf0).mp ha⟩
      · simp only [ha]
        refine ⟨good_push h hf0 hf47 (fun hm => ha ((any_fold h hf0).mpr hm)), List.prefix_append _ _, ?_, ?_⟩
        · intro m hm
          rcases List.mem_append.mp hm with hm | hm
          · exact Or.inl hm
          · exact Or.inr (List.mem_singleton.mp hm)
        · simp
    obtain ⟨g, p, o, f⟩ := step
    obtain ⟨g', p', o', f'⟩ := ih (fun k hk => hl k (by simp [hk])) _ g
    refine ⟨g', p.trans p', ?_, ?_⟩
    · intro m hm
      rcases o' m hm with hm | ⟨k, hk, e⟩
      · rcases o m hm with hm | e
        · exact Or.inl hm
        · exact Or.inr ⟨i, by simp, e⟩
      · exact Or.inr ⟨k, by simp [hk], e⟩
    · intro k hk
      rcases List.mem_cons.mp hk with rfl | hk
      · exact (p'.sublist.map fold).subset f
      · exact f' k hk

theorem baseName_isBase (s : Str) : IsBase s (baseName s) := by
  unfold baseName IsBase
  constructor
  · intro h
    have := List.mem_takeWhile_imp (List.mem_reverse.mp h)
    simp at this
  · rcases hd : s.reverse.dropWhile (· ≠ 47) with _ | ⟨a, t⟩
    · left
      have := List.takeWhile_append_dropWhile (p := fun x : UInt8 => decide (x ≠ 47)) (l := s.reverse)
      rw [hd, List.append_nil] at this
      rw [this, List.reverse_reverse]
    · right
      refine ⟨t.reverse, ?_⟩
      have hab : a = 47 := by
        have := List.head_dropWhile_not (fun x : UInt8 => decide (x ≠ 47)) (l := s.reverse) (by rw [hd]; simp)
        simp only [hd, List.head_cons] at this
        simpa using this
      have := List.takeWhile_append_dropWhile (p := fun x : UInt8 => decide (x ≠ 47)) (l := s.reverse)
      rw [hd] at this
      have := congrArg List.reverse this
      rw [List.reverse_reverse] at this
      conv_lhs => rw [← this, hab]
      simp

theorem baseName_id {s : Str} (h : 47 ∉ s) : baseName s = s := by
  unfold baseName
  have : s.reverse.takeWhile (· ≠ 47) = s.reverse := by
    rw [List.takeWhile_eq_self_iff]
    intro x hx
    simp only [ne_eq, decide_eq_true_eq]
    exact fun e => h (e ▸ List.mem_reverse.mp hx)
  rw [this, List.reverse_reverse]

theorem baseName_clean (s : Str) : 0 ∉ baseName (cstr s) ∧ 47 ∉ baseName (cstr s) := by
  refine ⟨fun h => ?_, (baseName_isBase _).1⟩
  have h := List.mem_reverse.mp h
  have h := (List.takeWhile_sublist _).subset h
  exact Cmdlib.cstr_ne_zero s 0 (List.mem_reverse.mp h) rfl

/-- Everything about one request. -/
theorem find_spec {request : Str} {tbl : List Str} (h : Good tbl) {i : Nat} {t : List Str}
    (e : findMiptex request tbl = .ok (i, t)) :
    Good t ∧ tbl <+: t ∧ (∃ m, t[i]? = some m ∧ fold m = fold (baseName (cstr request))) ∧
      (∀ m ∈ t, m ∈ tbl ∨ m = baseName (cstr request) ∨ FrameOf (baseName (cstr request)) m) ∧
      (FramesBelow tbl → FramesBelow t) := by
  obtain ⟨h0, h47⟩ := baseName_clean request
  unfold findMiptex at e
  simp only at e
  generalize hn : baseName (cstr request) = name at *
  rcases hf : tbl.findIdx? (iequalC name) with _ | k
  · rw [hf] at e
    simp only at e
    have hnew : fold name ∉ tbl.map fold := by
      intro hm
      have := (any_fold h h0).mpr hm
      rw [List.findIdx?_eq_none_iff] at hf
      obtain ⟨x, hx, ex⟩ := List.any_eq_true.mp this
      rw [hf x hx] at ex
      exact absurd ex (by simp)
    have hg := good_push h h0 h47 hnew
    by_cases hp : name.head? = some 43
    · rw [if_pos hp, Outcome.bind_eq_ok] at e
      obtain ⟨t', et, e⟩ := e
      simp only [Outcome.ok.injEq, Prod.mk.injEq] at e
      obtain ⟨rfl, rfl⟩ := e
      unfold addAnimTex at et
      rcases hfr : frameOf (name.getD 1 0) with _ | ⟨n, base⟩
      · rw [hfr] at et; simp at et
      rw [hfr] at et
      simp only [Outcome.ok.injEq] at et
      obtain ⟨g, p, o, f⟩ := foldl_frames h0 h47 hp hfr (List.range n) (fun i hi => List.mem_range.mp hi) _ hg
      rw [et] at g p o f
      refine ⟨g, (List.prefix_append _ _).trans p, ⟨name, ?_, rfl⟩, ?_, ?_⟩
      · have hlen : tbl.length < (tbl ++ [name]).length := by simp
        have := List.IsPrefix.getElem p hlen
        rw [List.getElem?_eq_getElem (by have := p.length_le; simp at this; omega), ← this]
        simp
      · intro m hm
        rcases o m hm with hm | ⟨i, hi, e⟩
        · rcases List.mem_append.mp hm with hm | hm
          · exact Or.inl hm
          · exact Or.inr (Or.inl (List.mem_singleton.mp hm))
        · have hi := List.mem_range.mp hi
          obtain ⟨c, rest, rfl, hc, hset⟩ := frame_name hp hfr hi
          refine Or.inr (Or.inr ⟨c, rest.take 13, base + UInt8.ofNat i, by simp, ?_, (frameOf_mem hc hi).1⟩)
          rw [e, hset]
      · intro hb c rest hm hr b hbc
        rcases o _ hm with hm | ⟨i, hi, e⟩
        · rcases List.mem_append.mp hm with hm | hm
          · have := hb c rest hm hr b hbc
            exact (((List.prefix_append _ _).trans p).sublist.map fold).subset this
          · have e := List.mem_singleton.mp hm
            subst e
            obtain ⟨n', base', h', k, hk, ek⟩ := frameOf_below hbc
            have : frameOf c = some (n, base) := by simpa using hfr
            rw [this] at h'
            simp only [Option.some.injEq, Prod.mk.injEq] at h'
            obtain ⟨rfl, rfl⟩ := h'
            have := f k (List.mem_range.mpr hk)
            obtain ⟨c', rest', e', -, hset⟩ := frame_name hp hfr hk
            rw [hset] at this
            simp only [List.cons.injEq, true_and] at e'
            obtain ⟨rfl, rfl⟩ := e'
            rw [List.take_of_length_le hr] at this
            simpa [fold, ek] using this
        · have hi := List.mem_range.mp hi
          obtain ⟨c', rest', rfl, hc, hset⟩ := frame_name hp hfr hi
          rw [hset] at e
          simp only [List.cons.injEq, true_and] at e
          obtain ⟨rfl, rfl⟩ := e
          obtain ⟨k, hk, ek⟩ := frame_of_frame hc hi hbc
          have := f k (List.mem_range.mpr hk)
          rw [hset] at this
          simpa [fold, ek] using this
    · rw [if_neg hp] at e
      simp only [Outcome.ok.injEq, Prod.mk.injEq] at e
      obtain ⟨rfl, rfl⟩ := e
      refine ⟨hg, List.prefix_append _ _, ⟨name, by simp, rfl⟩, ?_, ?_⟩
      · intro m hm
        rcases List.mem_append.mp hm with hm | hm
        · exact Or.inl hm
        · exact Or.inr (Or.inl (List.mem_singleton.mp hm))
      · intro hb c rest hm hr b hbc
        rcases List.mem_append.mp hm with hm | hm
        · exact ((List.prefix_append _ _).sublist.map fold).subset (hb c rest hm hr b hbc)
        · rw [← List.mem_singleton.mp hm] at hp
          simp at hp
  · rw [hf] at e
    simp only [Outcome.ok.injEq, Prod.mk.injEq] at e
    obtain ⟨rfl, rfl⟩ := e
    obtain ⟨hk, hp, -⟩ := List.findIdx?_eq_some_iff_getElem.mp hf
    refine ⟨h, List.prefix_refl _, ⟨tbl[k], by rw [List.getElem?_eq_getElem hk], ?_⟩, fun m hm => Or.inl hm, fun hb => hb⟩
    exact ((iequalC_fold h0 (h.clean _ (List.getElem_mem hk)).1).mp hp).symm

theorem findAll_spec (requests : List Str) : ∀ (tbl : List Str), Good tbl → ∀ {t : List Str}, findAll requests tbl = .ok t →
    Good t ∧ tbl <+: t ∧ (∀ r ∈ requests, fold (baseName (cstr r)) ∈ t.map fold) ∧
      (∀ m ∈ t, m ∈ tbl ∨ ∃ r ∈ requests, m = baseName (cstr r) ∨ FrameOf (baseName (cstr r)) m) ∧
      (FramesBelow tbl → FramesBelow t) := by
  induction requests with
  | nil =>
    intro tbl h t e
    simp only [findAll, Outcome.ok.injEq] at e
    subst e
    exact ⟨h, List.prefix_refl _, by simp, fun m hm => Or.inl hm, fun hb => hb⟩
  | cons r rs ih =>
    intro tbl h t e
    rw [findAll, Outcome.bind_eq_ok] at e
    obtain ⟨⟨i, t1⟩, e1, e2⟩ := e
    obtain ⟨g, p, ⟨m, hm, em⟩, o, f⟩ := find_spec h e1
    obtain ⟨g', p', q', o', f'⟩ := ih t1 g e2
    refine ⟨g', p.trans p', ?_, ?_, fun hb => f' (f hb)⟩
    · intro r' hr
      rcases List.mem_cons.mp hr with rfl | hr
      · rw [← em]
        exact List.mem_map_of_mem (p'.sublist.subset (List.mem_of_getElem? hm))
      · exact q' r' hr
    · intro x hx
      rcases o' x hx with hx | ⟨r', hr, e⟩
      · rcases o x hx with hx | e
        · exact Or.inl hx
        · exact Or.inr ⟨r, by simp, e⟩
      · exact Or.inr ⟨r', by simp [hr], e⟩

theorem good_nil : Good [] := ⟨by simp, by simp [Spec.Unique]⟩

theorem framesBelow_nil : FramesBelow [] := by
  intro c rest h
  simp at h

theorem frameChar_frame {j : Nat} (hj : j < 20) : IsFrame (frameChar j) ∧ frameOf (frameChar j) ≠ none := by
  interval_cases j <;> simp [frameChar, IsFrame, frameOf]

theorem frameChar_surj {b : UInt8} (h : IsFrame b) : ∃ j < 20, frameChar j = b := by
  have hb := b.toNat_lt
  simp only [IsFrame, UInt8.le_iff_toNat_le] at h
  rcases h with h | h
  · refine ⟨b.toNat - 48, by simp at h; omega, ?_⟩
    simp at h
    unfold frameChar
    rw [if_pos (by omega), ← UInt8.toNat_inj]
    simp [UInt8.toNat_add]
    omega
  · refine ⟨b.toNat - 87, by simp at h; omega, ?_⟩
    simp at h
    unfold frameChar
    rw [if_neg (by omega), ← UInt8.toNat_inj]
    simp [UInt8.toNat_add]
    omega

/-- Requests end in an error only for a new animated texture whose second character is no frame. -/
theorem find_error_iff (request : Str) (tbl : List Str) (h : Good tbl) : findMiptex request tbl ≠ .ub ∧
    (findMiptex request tbl = .error ↔ fold (baseName (cstr request)) ∉ tbl.map fold ∧
      (baseName (cstr request)).head? = some 43 ∧ frameOf ((baseName (cstr request)).getD 1 0) = none) := by
  obtain ⟨h0, -⟩ := baseName_clean request
  have hfind : tbl.findIdx? (iequalC (baseName (cstr request))) = none ↔ fold (baseName (cstr request)) ∉ tbl.map fold := by
    rw [← any_fold h h0, List.findIdx?_eq_none_iff]
    simp
  unfold findMiptex
  simp only
  rcases hf : tbl.findIdx? (iequalC (baseName (cstr request))) with _ | k
  · simp only
    have hnew := hfind.mp hf
    by_cases hp : (baseName (cstr request)).head? = some 43
    · rw [if_pos hp, addAnimTex]
      rcases frameOf ((baseName (cstr request)).getD 1 0) with _ | ⟨n, b⟩
      · exact ⟨fun e => by (cases e), fun _ => ⟨hnew, hp, rfl⟩, fun _ => rfl⟩
      · exact ⟨fun e => by (cases e), fun e => by (cases e), fun e => by simp at e⟩
    · rw [if_neg hp]
      exact ⟨fun e => by (cases e), fun e => by (cases e), fun e => absurd e.2.1 hp⟩
  · simp only
    refine ⟨fun e => by (cases e), fun e => by (cases e), fun e => ?_⟩
    have := hfind.mpr e.1
    rw [hf] at this
    cases this

theorem set_one {name : Str} (h : 2 ≤ name.length) : ∃ a c rest, name = a :: c :: rest ∧ ∀ b, name.set 1 b = a :: b :: rest := by
  match name, h with
  | a :: c :: rest, _ => exact ⟨a, c, rest, rfl, fun b => rfl⟩

theorem frame_clean {name : Str} (h0 : 0 ∉ name) (h47 : 47 ∉ name) {j : Nat} (hj : j < 20) :
    baseName (cstr (name.set 1 (frameChar j))) = name.set 1 (frameChar j) := by
  have hf : frameChar j ≠ 0 ∧ frameChar j ≠ 47 := by
    interval_cases j <;> simp [frameChar]
  have m0 : ∀ x : UInt8, frameChar j ≠ x → x ∉ name → x ∉ name.set 1 (frameChar j) := by
    intro x hx hn hm
    rcases List.mem_or_eq_of_mem_set hm with hm | e
    · exact hn hm
    · exact hx e.symm
  rw [Cmdlib.cstr_of_noNul _ (fun c hc e => m0 0 hf.1 h0 (e ▸ hc)), baseName_id (m0 47 hf.2 h47)]

theorem framesOf_spec (there : Str → Bool) {name : Str} (h0 : 0 ∉ name) (h47 : 47 ∉ name) (hl : 2 ≤ name.length) :
    ∀ (js : List Nat), (∀ j ∈ js, j < 20) → ∀ tbl, Good tbl → ∃ t, framesOf there name js tbl = .ok t ∧ Good t ∧ tbl <+: t ∧
      (∀ j ∈ js, there (name.set 1 (frameChar j)) = true → fold (name.set 1 (frameChar j)) ∈ t.map fold) ∧
      (∀ m ∈ t, m ∈ tbl ∨ ∃ j ∈ js, there (name.set 1 (frameChar j)) = true ∧
        (m = name.set 1 (frameChar j) ∨ FrameOf (name.set 1 (frameChar j)) m)) ∧
      (FramesBelow tbl → FramesBelow t) := by
  intro js
  induction js with
  | nil =>
    intro _ tbl h
    exact ⟨tbl, rfl, h, List.prefix_refl _, by simp, fun m hm => Or.inl hm, fun hb => hb⟩
  | cons j js ih =>
    intro hj tbl h
    have hj20 := hj j (by simp)
    rw [framesOf, if_neg (by omega)]
    by_cases ht : there (name.set 1 (frameChar j)) = true
    · rw [if_pos ht]
      have hcl := frame_clean h0 h47 hj20
      have hne := find_error_iff (name.set 1 (frameChar j)) tbl h
      rw [hcl] at hne
      obtain ⟨a, c, rest, -, hset⟩ := set_one hl
      rcases e1 : findMiptex (name.set 1 (frameChar j)) tbl with ⟨i, t1⟩ | _ | _
      · obtain ⟨g, p, ⟨m, hm, em⟩, o, f⟩ := find_spec h e1
        rw [hcl] at em o
        obtain ⟨t, e, g', p', q', o', f'⟩ := ih (fun k hk => hj k (by simp [hk])) t1 g
        refine ⟨t, by rw [Outcome.ok_bind]; exact e, g', p.trans p', ?_, ?_, fun hb => f' (f hb)⟩
        · intro k hk hth
          rcases List.mem_cons.mp hk with rfl | hk
          · rw [← em]
            exact List.mem_map_of_mem (p'.sublist.subset (List.mem_of_getElem? hm))
          · exact q' k hk hth
        · intro x hx
          rcases o' x hx with hx | ⟨k, hk, hh⟩
          · rcases o x hx with hx | e
            · exact Or.inl hx
            · exact Or.inr ⟨j, by simp, ht, e⟩
          · exact Or.inr ⟨k, by simp [hk], hh⟩
      · exfalso
        have := (hne.2.mp e1).2.2
        rw [hset] at this
        exact (frameChar_frame hj20).2 (by simpa using this)
      · exact absurd e1 hne.1
    · rw [if_neg ht]
      obtain ⟨t, e, g', p', q', o', f'⟩ := ih (fun k hk => hj k (by simp [hk])) tbl h
      refine ⟨t, e, g', p', ?_, ?_, f'⟩
      · intro k hk hth
        rcases List.mem_cons.mp hk with rfl | hk
        · exact absurd hth ht
        · exact q' k hk hth
      · intro x hx
        rcases o' x hx with hx | ⟨k, hk, hh⟩
        · exact Or.inl hx
        · exact Or.inr ⟨k, by simp [hk], hh⟩

theorem hasFrames_iff (hl : Bool) (name : Str) :
    hasFrames hl name = true ↔ ∃ a rest, name = a :: rest ∧ (a = 43 ∨ (hl = true ∧ a = 45)) := by
  unfold hasFrames
  rcases name with _ | ⟨a, rest⟩ <;> simp

theorem framesLoop_spec (hl : Bool) (there : Str → Bool) : ∀ (ns : List Str), (∀ n ∈ ns, 0 ∉ n ∧ 47 ∉ n) →
    (∀ n ∈ ns, hasFrames hl n = true → 2 ≤ n.length) → ∀ tbl, Good tbl →
    ∃ t, framesLoop hl there ns tbl = .ok t ∧ Good t ∧ tbl <+: t ∧
      (∀ n ∈ ns, hasFrames hl n = true → ∀ j < 20, there (n.set 1 (frameChar j)) = true →
        fold (n.set 1 (frameChar j)) ∈ t.map fold) ∧
      (∀ m ∈ t, m ∈ tbl ∨ ∃ n ∈ ns, hasFrames hl n = true ∧ ∃ j < 20, there (n.set 1 (frameChar j)) = true ∧
        (m = n.set 1 (frameChar j) ∨ FrameOf (n.set 1 (frameChar j)) m)) ∧
      (FramesBelow tbl → FramesBelow t) := by
  intro ns
  induction ns with
  | nil =>
    intro _ _ tbl h
    exact ⟨tbl, rfl, h, List.prefix_refl _, by simp, fun m hm => Or.inl hm, fun hb => hb⟩
  | cons n ns ih =>
    intro hc hlen tbl h
    rw [framesLoop]
    by_cases hf : hasFrames hl n = true
    · rw [if_pos hf]
      obtain ⟨h0, h47⟩ := hc n (by simp)
      obtain ⟨t1, e1, g, p, q, o, f⟩ := framesOf_spec there h0 h47 (hlen n (by simp) hf) (List.range 20)
        (fun j hj => List.mem_range.mp hj) tbl h
      obtain ⟨t, e, g', p', q', o', f'⟩ := ih (fun k hk => hc k (by simp [hk])) (fun k hk => hlen k (by simp [hk])) t1 g
      refine ⟨t, by rw [e1, Outcome.ok_bind]; exact e, g', p.trans p', ?_, ?_, fun hb => f' (f hb)⟩
      · intro k hk hkf j hj hth
        rcases List.mem_cons.mp hk with rfl | hk
        · exact (p'.sublist.map fold).subset (q j (List.mem_range.mpr hj) hth)
        · exact q' k hk hkf j hj hth
      · intro x hx
        rcases o' x hx with hx | ⟨k, hk, hh⟩
        · rcases o x hx with hx | ⟨j, hj, hth, e⟩
          · exact Or.inl hx
          · exact Or.inr ⟨n, by simp, hf, j, List.mem_range.mp hj, hth, e⟩
        · exact Or.inr ⟨k, by simp [hk], hh⟩
    · rw [if_neg hf]
      obtain ⟨t, e, g', p', q', o', f'⟩ := ih (fun k hk => hc k (by simp [hk])) (fun k hk => hlen k (by simp [hk])) tbl h
      refine ⟨t, e, g', p', ?_, ?_, f'⟩
      · intro k hk hkf j hj hth
        rcases List.mem_cons.mp hk with rfl | hk
        · exact absurd hkf hf
        · exact q' k hk hkf j hj hth
      · intro x hx
        rcases o' x hx with hx | ⟨k, hk, hh⟩
        · exact Or.inl hx
        · exact Or.inr ⟨k, by simp [hk], hh⟩

theorem framesLoop_ub (hl : Bool) (there : Str → Bool) : ∀ (ns : List Str), (∀ n ∈ ns, 0 ∉ n ∧ 47 ∉ n) →
    (∃ n ∈ ns, hasFrames hl n = true ∧ n.length < 2) → ∀ tbl, Good tbl → framesLoop hl there ns tbl = .ub := by
  intro ns
  induction ns with
  | nil => intro _ h; simp at h
  | cons n ns ih =>
    intro hc hex tbl h
    rw [framesLoop]
    by_cases hf : hasFrames hl n = true
    · rw [if_pos hf]
      by_cases hlen : n.length < 2
      · rw [show List.range 20 = 0 :: (List.range 19).map (· + 1) from by decide, framesOf, if_pos hlen]
        rfl
      · obtain ⟨h0, h47⟩ := hc n (by simp)
        obtain ⟨t1, e1, g, -⟩ := framesOf_spec there h0 h47 (by omega) (List.range 20)
          (fun j hj => List.mem_range.mp hj) tbl h
        rw [e1, Outcome.ok_bind]
        refine ih (fun k hk => hc k (by simp [hk])) ?_ t1 g
        obtain ⟨k, hk, hh⟩ := hex
        rcases List.mem_cons.mp hk with rfl | hk
        · exact absurd hh.2 hlen
        · exact ⟨k, hk, hh⟩
    · rw [if_neg hf]
      refine ih (fun k hk => hc k (by simp [hk])) ?_ tbl h
      obtain ⟨k, hk, hh⟩ := hex
      rcases List.mem_cons.mp hk with rfl | hk
      · exact absurd hh.1 hf
      · exact ⟨k, hk, hh⟩

end Verif.Miptex
