import Verif.Geom.StorageLemmas

/-! Property C47: the container of the points of a polygon. -/

namespace Verif.Geom.Storage

open Verif

variable {α : Type}

/-- C47 (partial): for every history of constructions, pushes, writes, resizes, clears, copies and moves in which no
container that held more than `N` points and was then cleared, shrunk or overwritten to at most `N` is grown beyond `N`
by a push, every operation is defined, every size is right and reading an index returns the last value written there.
Missing: the other histories; `storage_stale` shows that the property is false for them. -/
theorem storage_is_array_partial (N : Nat) (os : List (Op α)) (W : Spec.World α)
    (hf : Spec.FreshRun N Spec.init os) (hr : Spec.run N Spec.init os = some W) :
    ∃ w, run N (init N) os = .ok w ∧ ∀ i, (w i).count = (W i).vals.length ∧
      ∀ (k : Nat) (v : α), (W i).vals[k]? = some (some v) → read N (w i) k = .ok (some v) := by
  have hi : ∀ i, Rel N ((init N : World α) i) (Spec.init i) := fun _ => new_rel N 0
  obtain ⟨w, e, h⟩ := run_rel hi hf hr
  refine ⟨w, e, fun i => ⟨(h i).cnt, fun k v hv => ?_⟩⟩
  unfold read
  by_cases hk : k ≥ N
  · rw [if_pos hk]
    have := (h i).high (k - N) v (by rw [show N + (k - N) = k by omega]; exact hv)
    simp only [Outcome.readAt, this]
  · rw [if_neg hk]
    have := (h i).low k v (by omega) hv
    simp only [Outcome.readAt, this]

/-- A history in which a container spills, is moved from, shrinks and grows again by `resize`. -/
example :
    let os : List (Op Nat) :=
      [.ofRange 0 [1, 2, 3], .push 0 4, .copyCtor 1 0, .moveAssign 2 0, .push 0 7, .push 0 8, .push 0 9, .resize 1 1,
       .resize 1 3, .write 1 2 5, .push 1 6]
    Spec.FreshRun 2 Spec.init os ∧
      (Spec.run 2 Spec.init os).map (fun W => (W 0).vals) = some [some 7, some 8, some 9] ∧
      (Spec.run 2 Spec.init os).map (fun W => (W 1).vals) = some [some 1, none, some 5, some 6] := by
  refine ⟨?_, by decide +kernel, by decide +kernel⟩
  simp [Spec.FreshRun, Spec.Fresh, Spec.step, Spec.World.set, Spec.Arr.become, Spec.resized]

/-- The pushes of the history below. -/
theorem run_pushes (N : Nat) (b : α) (w : World α) (old : List (Option α)) : ∀ (n : Nat) (arr : List (Option α)) (c : Nat),
    arr.length = N → c + n = N → w 0 = ⟨arr, old, c⟩ →
    ∃ w' arr', run N w (List.replicate n (Op.push 0 b)) = .ok w' ∧ w' 0 = ⟨arr', old, N⟩ ∧ arr'.length = N := by
  intro n
  induction n generalizing w with
  | zero =>
    intro arr c ha hc hw
    exact ⟨w, arr, rfl, by rw [hw, ← hc]; rfl, ha⟩
  | succ n ih =>
    intro arr c ha hc hw
    have hp : push N (w 0) b = .ok ⟨arr.set c (some b), old, c + 1⟩ := by
      unfold push
      rw [hw]
      simp only
      rw [if_neg (by omega)]
      simp only [Outcome.writeAt]
      rw [if_pos (by omega)]
      simp
    obtain ⟨w', arr', e, h1, h2⟩ := ih (w.set 0 ⟨arr.set c (some b), old, c + 1⟩) (arr.set c (some b)) (c + 1)
      (by simpa using ha) (by omega) (by simp [World.set])
    refine ⟨w', arr', ?_, h1, h2⟩
    rw [List.replicate_succ]
    simp only [run, step, hp, Outcome.ok_bind, Outcome.pure_eq, e]

theorem run_append (N : Nat) (w : World α) (os os' : List (Op α)) :
    run N w (os ++ os') = (run N w os).bind fun w' => run N w' os' := by
  induction os generalizing w with
  | nil => rfl
  | cons o os ih =>
    simp only [List.cons_append, run]
    show (step N w o).bind _ = ((step N w o).bind _).bind _
    cases step N w o with
    | ok w1 => exact ih w1
    | error => rfl
    | ub => rfl

theorem spec_pushes (N : Nat) (b : α) : ∀ (n : Nat) (W : Spec.World α), ∃ W',
    Spec.run N W (List.replicate n (Op.push 0 b)) = some W' ∧ (W' 0).vals = (W 0).vals ++ List.replicate n (some b) := by
  intro n
  induction n with
  | zero => intro W; exact ⟨W, rfl, by simp⟩
  | succ n ih =>
    intro W
    obtain ⟨W', e, h⟩ := ih (W.set 0 ⟨(W 0).vals ++ [some b], (W 0).stale⟩)
    refine ⟨W', ?_, ?_⟩
    · rw [List.replicate_succ]
      simp only [Spec.run, Spec.step, Option.bind_some, e]
    · rw [h]
      simp [Spec.World.set, List.replicate_succ]

/-- C47 is false: a container that held `N + 1` points `a`, was cleared and was then filled with `N + 1` points `b` still
returns `a` at index `N`, whatever `N` is. -/
theorem storage_stale (N : Nat) (a b : α) :
    let os : List (Op α) := [.ofRange 0 (List.replicate (N + 1) a), .clear 0] ++ List.replicate (N + 1) (.push 0 b)
    (∃ w, run N (init N) os = .ok w ∧ read N (w 0) N = .ok (some a)) ∧
    (∃ W, Spec.run N Spec.init os = some W ∧ (W 0).vals[N]? = some (some b)) := by
  intro os
  constructor
  · obtain ⟨s, e, hr⟩ := ofRange_rel N (List.replicate (N + 1) a)
    have hv : s.vector = [some a] := by
      have h1 := hr.high 0 a (by simp)
      have h2 := hr.fresh rfl
      have h3 := hr.cnt
      simp only [List.length_map, List.length_replicate] at h3
      have hl : s.vector.length = 1 := by omega
      match hm : s.vector, hl with
      | [x], _ => rw [hm] at h1; simpa using h1
    have hrep : List.replicate (N + 1) (Op.push 0 b) = List.replicate N (Op.push 0 b) ++ [Op.push 0 b] :=
      List.replicate_succ'
    obtain ⟨w', arr', e', h1, h2⟩ := run_pushes N b (((init N : World α).set 0 s).set 0 (clear s)) [some a] N s.array 0 hr.arr
      (by omega) (by simp [World.set, clear, hv])
    have hp : push N (w' 0) b = .ok ⟨arr', [some a, some b], N + 1⟩ := by
      unfold push
      rw [h1]
      simp only
      rw [if_pos (by omega)]
      simp
    refine ⟨w'.set 0 ⟨arr', [some a, some b], N + 1⟩, ?_, ?_⟩
    · simp only [os, List.cons_append, List.nil_append, run, step, e, Outcome.ok_bind, Outcome.pure_eq, hrep]
      rw [run_append]
      have : ((init N : World α).set 0 s) 0 = s := by simp [World.set]
      rw [this, e']
      simp only [Outcome.bind, run, step, hp, Outcome.ok_bind, Outcome.pure_eq]
    · simp [read, World.set, Outcome.readAt]
  · obtain ⟨W', e, h⟩ := spec_pushes N b (N + 1) (((Spec.init : Spec.World α).set 0
      ⟨(List.replicate (N + 1) a).map some, false⟩).set 0
      ((((Spec.init : Spec.World α).set 0 ⟨(List.replicate (N + 1) a).map some, false⟩) 0).become N []))
    refine ⟨W', ?_, ?_⟩
    · simp only [os, List.cons_append, List.nil_append, Spec.run, Spec.step, Option.bind_some]
      exact e
    · rw [h]
      simp [Spec.World.set, Spec.Arr.become]

end Verif.Geom.Storage
