import Verif.Radiosity.Race
import Mathlib.Data.List.Basic

/-!
A pass of bounced light under any schedule (C198).
-/

namespace Verif.Radiosity

variable {S : Type}

/-- What holds after every step. -/
structure Inv (work : Nat → S → S × Bool) (faces : Nat → S) (p : Pass S) : Prop where
  start : ∀ i, p.pc i = .start → p.faces i = faces i
  done : ∀ i, p.pc i ≠ .start → p.faces i = (work i (faces i)).1
  any : p.any = true → ∃ i, p.pc i ≠ .start ∧ (work i (faces i)).2 = true
  store : ∀ i, p.pc i = .store true → ∃ i, p.pc i ≠ .start ∧ (work i (faces i)).2 = true

theorem step_inv (work : Nat → S → S × Bool) (faces : Nat → S) (p : Pass S) (i : Nat) (h : Inv work faces p) :
    Inv work faces (step work p i) := by
  have moved : ∀ (q : Pc), q ≠ .start → (∃ j, p.pc j ≠ .start ∧ (work j (faces j)).2 = true) →
      ∃ j, Function.update p.pc i q j ≠ .start ∧ (work j (faces j)).2 = true := by
    rintro q hq ⟨j, h1, h2⟩
    refine ⟨j, ?_, h2⟩
    by_cases hj : j = i
    · subst hj; rw [Function.update_self]; exact hq
    · rw [Function.update_of_ne hj]; exact h1
  unfold step
  split
  · next hp =>
    have e := h.start i hp
    have hq : (if (work i (p.faces i)).2 = true then Pc.store true else Pc.load) ≠ .start := by
      split <;> simp
    refine ⟨?_, ?_, ?_, ?_⟩
    · intro j hj
      simp only at hj ⊢
      by_cases hji : j = i
      · subst hji; rw [Function.update_self] at hj; exact absurd hj hq
      · rw [Function.update_of_ne hji] at hj ⊢; exact h.start j hj
    · intro j hj
      simp only at hj ⊢
      by_cases hji : j = i
      · subst hji; rw [Function.update_self, e]
      · rw [Function.update_of_ne hji] at hj ⊢; exact h.done j hj
    · intro ha
      exact moved _ hq (h.any ha)
    · intro j hj
      simp only at hj ⊢
      by_cases hji : j = i
      · subst hji
        rw [Function.update_self] at hj
        by_cases hw : (work j (p.faces j)).2 = true
        · exact ⟨j, by rw [Function.update_self]; exact hq, e ▸ hw⟩
        · rw [if_neg hw] at hj; cases hj
      · rw [Function.update_of_ne hji] at hj
        exact moved _ hq (h.store j hj)
  · next hp =>
    refine ⟨?_, ?_, fun ha => moved _ (by simp) (h.any ha), ?_⟩
    · intro j hj
      simp only at hj ⊢
      by_cases hji : j = i
      · subst hji; rw [Function.update_self] at hj; cases hj
      · rw [Function.update_of_ne hji] at hj; exact h.start j hj
    · intro j hj
      simp only at hj ⊢
      by_cases hji : j = i
      · subst hji; exact h.done j (by rw [hp]; simp)
      · rw [Function.update_of_ne hji] at hj; exact h.done j hj
    · intro j hj
      simp only at hj ⊢
      by_cases hji : j = i
      · subst hji
        rw [Function.update_self, Pc.store.injEq] at hj
        exact moved _ (by simp) (h.any hj)
      · rw [Function.update_of_ne hji] at hj
        exact moved _ (by simp) (h.store j hj)
  · next v hp =>
    refine ⟨?_, ?_, ?_, ?_⟩
    · intro j hj
      simp only at hj ⊢
      by_cases hji : j = i
      · subst hji; rw [Function.update_self] at hj; cases hj
      · rw [Function.update_of_ne hji] at hj; exact h.start j hj
    · intro j hj
      simp only at hj ⊢
      by_cases hji : j = i
      · subst hji; exact h.done j (by rw [hp]; simp)
      · rw [Function.update_of_ne hji] at hj; exact h.done j hj
    · intro ha
      simp only at ha
      subst ha
      exact moved _ (by simp) (h.store i hp)
    · intro j hj
      simp only at hj ⊢
      by_cases hji : j = i
      · subst hji; rw [Function.update_self] at hj; cases hj
      · rw [Function.update_of_ne hji] at hj
        exact moved _ (by simp) (h.store j hj)
  · exact h

theorem fold_inv (work : Nat → S → S × Bool) (faces : Nat → S) (sched : List Nat) (p : Pass S) (h : Inv work faces p) :
    Inv work faces (sched.foldl (step work) p) := by
  induction sched generalizing p with
  | nil => exact h
  | cons i sched ih => exact ih _ (step_inv work faces p i h)

theorem run_inv (work : Nat → S → S × Bool) (faces : Nat → S) (sched : List Nat) : Inv work faces (run work faces sched) :=
  fold_inv work faces sched _ ⟨fun _ _ => rfl, fun _ h => absurd rfl h, fun h => (by cases h), fun _ h => (by cases h)⟩

/-- Every schedule in which the task of a face ends leaves the face as if it had been alone; a face whose task has not
begun is as before. -/
theorem pass_faces (work : Nat → S → S × Bool) (faces : Nat → S) (sched : List Nat) (i : Nat) :
    ((run work faces sched).pc i = .done → (run work faces sched).faces i = (work i (faces i)).1) ∧
    ((run work faces sched).pc i = .start → (run work faces sched).faces i = faces i) :=
  ⟨fun h => (run_inv work faces sched).done i (by rw [h]; simp), (run_inv work faces sched).start i⟩

/-- If the pass says that light was bounced, a face bounced light. -/
theorem pass_true (work : Nat → S → S × Bool) (faces : Nat → S) (sched : List Nat)
    (h : (run work faces sched).any = true) : ∃ i, (work i (faces i)).2 = true := by
  obtain ⟨i, -, h⟩ := (run_inv work faces sched).any h
  exact ⟨i, h⟩

/-- The step of a task does not concern the others. -/
theorem step_other (work : Nat → S → S × Bool) (p : Pass S) (i j : Nat) (h : j ≠ i) :
    (step work p i).pc j = p.pc j := by
  unfold step
  split
  · simp only; rw [Function.update_of_ne h]
  · simp only; rw [Function.update_of_ne h]
  · simp only; rw [Function.update_of_ne h]
  · rfl

theorem step_load (work : Nat → S → S × Bool) (p : Pass S) (i : Nat) (h : p.pc i = .load) :
    step work p i = { p with pc := Function.update p.pc i (.store p.any) } := by
  unfold step
  rw [h]

theorem step_store (work : Nat → S → S × Bool) (p : Pass S) (i : Nat) (v : Bool) (h : p.pc i = .store v) :
    step work p i = { p with pc := Function.update p.pc i .done, any := v } := by
  unfold step
  rw [h]

theorem step_done (work : Nat → S → S × Bool) (p : Pass S) (i : Nat) (h : p.pc i = .done) : step work p i = p := by
  unfold step
  rw [h]

/-- A task alone. -/
theorem task_alone (work : Nat → S → S × Bool) (faces : Nat → S) (p : Pass S) (i : Nat) (hi : Inv work faces p)
    (h : p.pc i = .start) :
    ([i, i, i].foldl (step work) p).pc i = .done ∧
    ([i, i, i].foldl (step work) p).any = ((work i (faces i)).2 || p.any) := by
  have e := hi.start i h
  simp only [List.foldl_cons, List.foldl_nil]
  cases hw : (work i (faces i)).2 with
  | true =>
    have s1 : step work p i = { p with faces := Function.update p.faces i (work i (p.faces i)).1, pc := Function.update p.pc i (.store true) } := by
      unfold step
      rw [h]
      simp only
      rw [e, hw, if_pos rfl]
    have s2 := step_store work (step work p i) i true (by rw [s1]; simp)
    have s3 := step_done work (step work (step work p i) i) i (by rw [s2]; simp)
    rw [s3, s2]
    simp
  | false =>
    have s1 : step work p i = { p with faces := Function.update p.faces i (work i (p.faces i)).1, pc := Function.update p.pc i .load } := by
      unfold step
      rw [h]
      simp only
      rw [e, hw, if_neg (by simp)]
    have s2 := step_load work (step work p i) i (by rw [s1]; simp)
    have ha : (step work p i).any = p.any := by rw [s1]
    rw [ha] at s2
    have s3 := step_store work (step work (step work p i) i) i p.any (by rw [s2]; simp)
    rw [s3]
    simp

/-- One task after the other, in any order: the pass says that light was bounced if and only if a face bounced light. -/
theorem pass_one_by_one_partial (work : Nat → S → S × Bool) (faces : Nat → S) (order : List Nat) (hn : order.Nodup) :
    (run work faces (order.flatMap fun i => [i, i, i])).any = true ↔ ∃ i ∈ order, (work i (faces i)).2 = true := by
  have key : ∀ (order : List Nat) (p : Pass S), order.Nodup → Inv work faces p → (∀ i ∈ order, p.pc i = .start) →
      (((order.flatMap fun i => [i, i, i]).foldl (step work) p).any = true ↔
        p.any = true ∨ ∃ i ∈ order, (work i (faces i)).2 = true) := by
    intro order
    induction order with
    | nil => intro p _ _ _; simp
    | cons i order ih =>
      intro p hn hi hs
      rw [List.nodup_cons] at hn
      rw [List.flatMap_cons, List.foldl_append]
      obtain ⟨-, h2⟩ := task_alone work faces p i hi (hs i List.mem_cons_self)
      rw [ih _ hn.2 (fold_inv work faces [i, i, i] p hi) ?_, h2, Bool.or_eq_true]
      · constructor
        · rintro ((h | h) | ⟨j, hj, h⟩)
          · exact Or.inr ⟨i, List.mem_cons_self, h⟩
          · exact Or.inl h
          · exact Or.inr ⟨j, List.mem_cons_of_mem _ hj, h⟩
        · rintro (h | ⟨j, hj, h⟩)
          · exact Or.inl (Or.inr h)
          · rcases List.mem_cons.1 hj with rfl | hj
            · exact Or.inl (Or.inl h)
            · exact Or.inr ⟨j, hj, h⟩
      · intro j hj
        have hji : j ≠ i := fun e => hn.1 (e ▸ hj)
        simp only [List.foldl_cons, List.foldl_nil]
        rw [step_other work _ i j hji, step_other work _ i j hji, step_other work _ i j hji]
        exact hs j (List.mem_cons_of_mem _ hj)
  unfold run
  rw [key order _ hn ⟨fun _ _ => rfl, fun _ h => absurd rfl h, fun h => (by cases h), fun _ h => (by cases h)⟩ fun _ _ => rfl]
  simp

/-- Two faces, of which the first bounces light: with this schedule both tasks end and the pass says that nothing was
bounced, so light stops. The second task loads before, and stores after, the first one stores. -/
theorem pass_lost :
    let work : Nat → Unit → Unit × Bool := fun i _ => ((), i == 0)
    let p := run work (fun _ => ()) [1, 1, 0, 0, 1]
    p.pc 0 = .done ∧ p.pc 1 = .done ∧ (work 0 ()).2 = true ∧ p.any = false ∧ passes 1 [p.any] = 0 ∧
    (run work (fun _ => ()) [0, 0, 1, 1, 1]).any = true := by
  decide

/-- The passes that are lit: those before the first that says nothing was bounced, at most as many as asked for. -/
theorem passes_eq (n : Nat) (rs : List Bool) : passes n rs = min n (rs.takeWhile id).length := by
  induction rs generalizing n with
  | nil => cases n <;> simp [passes]
  | cons r rs ih =>
    cases n with
    | zero => simp [passes]
    | succ n =>
      cases r with
      | false => simp [passes]
      | true => simp [passes, ih]

end Verif.Radiosity
