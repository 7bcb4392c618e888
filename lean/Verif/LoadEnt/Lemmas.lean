import Mathlib.Tactic.Linarith
import Mathlib.Tactic.NormNum
import Verif.LoadEnt.Spec
import Verif.OnlyEnts.Props

namespace Verif.LoadEnt

open Spec
open OnlyEnts (Str Dict ieq)

theorem get_set (d : Dict) (k k' v : Str) : OnlyEnts.get (OnlyEnts.set d k v) k' = if k' = k then v else OnlyEnts.get d k' := by
  induction d with
  | nil =>
    by_cases h : k = k'
    · simp [OnlyEnts.set, OnlyEnts.get, OnlyEnts.find, h]
    · simp [OnlyEnts.set, OnlyEnts.get, OnlyEnts.find, h, Ne.symm h]
  | cons a t ih =>
    obtain ⟨x, y⟩ := a
    unfold OnlyEnts.set
    by_cases hx : k = x
    · subst hx
      rw [if_pos rfl]
      by_cases h : k = k'
      · subst h
        simp [OnlyEnts.get, OnlyEnts.find]
      · rw [if_neg (Ne.symm h)]
        simp [OnlyEnts.get, OnlyEnts.find, List.find?_cons_of_neg, h]
    · rw [if_neg hx]
      by_cases h : x = k'
      · subst h
        rw [if_neg (Ne.symm hx)]
        simp [OnlyEnts.get, OnlyEnts.find]
      · have e1 : ∀ l, OnlyEnts.get ((x, y) :: l) k' = OnlyEnts.get l k' := fun l => by
          simp [OnlyEnts.get, OnlyEnts.find, h]
        rw [e1, e1, ih]

theorem ieq_portal (e : Ent) : ieq (cls e) "func_areaportal".toList = true ↔ IsPortal e := by
  have h : ("func_areaportal".toList).map Char.toLower = "func_areaportal".toList := by decide +kernel
  unfold ieq IsPortal
  rw [h, decide_eq_true_eq]
  rfl

theorem portal_merged (e : Ent) (h : IsPortal e) : OnlyEnts.merged (cls e) = true := by
  unfold OnlyEnts.merged
  rw [(ieq_portal e).2 h, Bool.or_true]

theorem merged_val (e : Ent) : OnlyEnts.merged (cls e) = decide ((val e "classname").map Char.toLower ∈ OnlyEnts.Spec.worldClasses) := by
  rw [Bool.eq_iff_iff, OnlyEnts.merged_iff, decide_eq_true_eq]
  rfl

theorem mergedBrushes_cons (e : Ent) (t : List Ent) :
    mergedBrushes (e :: t) = (if OnlyEnts.merged (cls e) then e.brushes else []) ++ mergedBrushes t := by
  unfold mergedBrushes
  rw [List.filter_cons, merged_val]
  split_ifs <;> simp

theorem portalsBefore_succ (e : Ent) (t : List Ent) (i : Nat) :
    portalsBefore (e :: t) (i + 1) = (if IsPortal e then 1 else 0) + portalsBefore t i := by
  unfold portalsBefore
  rw [List.take_succ_cons, List.filter_cons]
  by_cases h : IsPortal e
  · simp [h]
    omega
  · simp [h]

theorem others_ok (count : Nat) (es : List Ent) (h : ∀ e ∈ es, IsPortal e → e.brushes.length = 1) :
    ∃ es', others false count es = .ok (es', count + portalsBefore es es.length, mergedBrushes es) ∧ es'.length = es.length ∧
      ∀ (i : Nat) (e e' : Ent), es[i]? = some e → es'[i]? = some e' →
        (IsPortal e → Numbered (count + portalsBefore es i + 1) e e') ∧ (¬ IsPortal e → e' = e) := by
  induction es generalizing count with
  | nil => exact ⟨[], by simp [others, portalsBefore, mergedBrushes], rfl, fun i e e' h => by simp at h⟩
  | cons x t ih =>
    by_cases hp : IsPortal x
    · have hb := h x (by simp) hp
      set x' : Ent := { x with portal := count + 1, keys := OnlyEnts.set x.keys "style".toList (Nat.toDigits 10 (count + 1)) } with hx'
      have hc : cls x' = cls x := by
        unfold cls
        rw [hx']
        simp only
        rw [get_set, if_neg (by decide)]
      obtain ⟨t', h1, h2, h3⟩ := ih (count + 1) (fun e he => h e (by simp [he]))
      have ha : areaPortal false count x = .ok (x', count + 1) := by
        unfold areaPortal
        rw [if_neg (by rw [(ieq_portal x).2 hp]; simp), if_neg (by simp [hb])]
        rfl
      refine ⟨x' :: t', ?_, by simp [h2], ?_⟩
      · unfold others
        rw [ha, Outcome.ok_bind, h1, Outcome.ok_bind, mergedBrushes_cons, List.length_cons, portalsBefore_succ, if_pos hp, hc]
        simp only [Outcome.ok.injEq, Prod.mk.injEq, true_and]
        exact ⟨by omega, rfl⟩
      · intro i e e' he he'
        cases i with
        | zero =>
          simp only [List.getElem?_cons_zero, Option.some.injEq] at he he'
          subst he
          subst he'
          refine ⟨fun _ => ⟨?_, ?_, ?_, rfl⟩, fun hn => absurd hp hn⟩
          · simp [portalsBefore, hx']
          · simp only [val, hx', get_set, if_pos, portalsBefore, List.take_zero, List.filter_nil, List.length_nil, Nat.add_zero]
          · intro k hk
            simp only [hx', get_set, if_neg hk]
        | succ j =>
          simp only [List.getElem?_cons_succ] at he he'
          obtain ⟨a, b⟩ := h3 j e e' he he'
          rw [portalsBefore_succ, if_pos hp]
          refine ⟨fun hq => ?_, b⟩
          have := a hq
          rwa [show count + (1 + portalsBefore t j) + 1 = count + 1 + portalsBefore t j + 1 by omega]
    · obtain ⟨t', h1, h2, h3⟩ := ih count (fun e he => h e (by simp [he]))
      have ha : areaPortal false count x = .ok (x, count) := by
        unfold areaPortal
        rw [if_pos]
        rw [← Bool.not_eq_true, ieq_portal]
        exact hp
      refine ⟨x :: t', ?_, by simp [h2], ?_⟩
      · unfold others
        rw [ha, Outcome.ok_bind, h1, Outcome.ok_bind, mergedBrushes_cons, List.length_cons, portalsBefore_succ, if_neg hp]
        simp
      · intro i e e' he he'
        cases i with
        | zero =>
          simp only [List.getElem?_cons_zero, Option.some.injEq] at he he'
          subst he
          subst he'
          exact ⟨fun hq => absurd hq hp, fun _ => rfl⟩
        | succ j =>
          simp only [List.getElem?_cons_succ] at he he'
          rw [portalsBefore_succ, if_neg hp, Nat.zero_add]
          exact h3 j e e' he he'

theorem others_error (region : Bool) (count : Nat) (es : List Ent) (h : ∃ e ∈ es, IsPortal e ∧ e.brushes.length ≠ 1) :
    others region count es = .error := by
  induction es generalizing count with
  | nil =>
    obtain ⟨e, he, _⟩ := h
    simp at he
  | cons x t ih =>
    unfold others
    by_cases hx : IsPortal x ∧ x.brushes.length ≠ 1
    · have ha : areaPortal region count x = .error := by
        unfold areaPortal
        rw [if_neg (by rw [(ieq_portal x).2 hx.1]; simp), if_pos hx.2]
      rw [ha]
      rfl
    · have ht : ∃ e ∈ t, IsPortal e ∧ e.brushes.length ≠ 1 := by
        obtain ⟨e, he, h'⟩ := h
        rcases List.mem_cons.1 he with rfl | he
        · exact absurd h' hx
        · exact ⟨e, he, h'⟩
      rcases ha : areaPortal region count x with r | _ | _
      · rw [Outcome.ok_bind, ih r.2 ht]
        rfl
      · rfl
      · exfalso
        unfold areaPortal at ha
        split_ifs at ha

theorem others_region (count : Nat) (es : List Ent) (h : ∀ e ∈ es, IsPortal e → e.brushes.length = 1) :
    others true count es = .ok (es, count, mergedBrushes es) := by
  induction es with
  | nil => rfl
  | cons x t ih =>
    have ha : areaPortal true count x = .ok (x, count) := by
      unfold areaPortal
      by_cases hp : IsPortal x
      · rw [if_neg (by rw [(ieq_portal x).2 hp]; simp), if_neg (by simp [h x (by simp) hp])]
        rfl
      · rw [if_pos]
        rw [← Bool.not_eq_true, ieq_portal]
        exact hp
    unfold others
    rw [ha, Outcome.ok_bind, ih (fun e he => h e (by simp [he])), Outcome.ok_bind, mergedBrushes_cons]

end Verif.LoadEnt
