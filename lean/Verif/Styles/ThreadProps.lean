import Verif.Styles.Props

/-!
C134: styles of surface lights, whose threads share the table.
-/

namespace Verif.Styles

open Verif
open Verif.EntData (Str Dict get set find)

/-- Workers that have the given names to ask for. -/
def workersFor (todos : List (List Str)) : List Worker := todos.map fun l => ⟨.idle, l, []⟩

/-- C134, the claim, first half: no schedule leads to a data race. -/
def NoRace : Prop := ∀ (start max : Int) (t : Table) (todos : List (List Str)) (schedule : List Nat),
  runWorkers start max ⟨t, workersFor todos⟩ schedule ≠ .ub

/-- C134, the claim, second half: the style of a name does not depend on the schedule. -/
def ScheduleIndependent : Prop := ∀ (start max : Int) (t : Table) (todos : List (List Str)) (s1 s2 : List Nat)
  (m1 m2 : Machine), runWorkers start max ⟨t, workersFor todos⟩ s1 = .ok m1 →
  runWorkers start max ⟨t, workersFor todos⟩ s2 = .ok m2 →
  ∀ w1 ∈ m1.workers, ∀ w2 ∈ m2.workers, ∀ n a b, (n, a) ∈ w1.done → (n, b) ∈ w2.done → a = b

/-- **C134**, negation: two threads that ask for styles of names not seen before, at the same time. -/
theorem surface_lights_race : ¬ NoRace := by
  intro h
  exact h 32 64 [] [[lit "a"], [lit "b"]] [0, 1, 0] (by decide +kernel)

/-- **C134**, negation: the same two threads one after the other give different styles in each order. -/
theorem surface_styles_depend_on_schedule : ¬ ScheduleIndependent := by
  intro h
  have := h 32 64 [] [[lit "a"], [lit "b"]] [0, 0, 1, 1] [1, 1, 0, 0]
    ⟨[(lit "a", 32), (lit "b", 33)], [⟨.idle, [], [(lit "a", 32)]⟩, ⟨.idle, [], [(lit "b", 33)]⟩]⟩
    ⟨[(lit "b", 32), (lit "a", 33)], [⟨.idle, [], [(lit "a", 33)]⟩, ⟨.idle, [], [(lit "b", 32)]⟩]⟩
    (by decide +kernel) (by decide +kernel) ⟨.idle, [], [(lit "a", 32)]⟩ (by simp) ⟨.idle, [], [(lit "a", 33)]⟩ (by simp)
    (lit "a") 32 33 (by simp) (by simp)
  omega

/-- What is true of a worker whose names are all in the table. -/
def Served (t : Table) (l : List Str) (w : Worker) : Prop :=
  (w.done.map Prod.fst ++ (match w.pc with | .idle => [] | .inside n => [n]) ++ w.todo = l) ∧
  ∀ p ∈ w.done, lookup t p.1 = some p.2

theorem styleFor_known {start max : Int} {t : Table} {n : Str} {s : Int} (h : lookup t n = some s) :
    styleFor start max t n = .ok (s, t) := by
  unfold styleFor; rw [h]

/-- **C134**, for names that the entities of the map already have: under every schedule of any number of threads there
is no data race, the table stays as it is, and every thread gets, in the order of its requests, the style that was given
out for the name. -/
theorem surface_styles_partial (start max : Int) (t : Table) (todos : List (List Str))
    (hk : ∀ l ∈ todos, ∀ n ∈ l, ∃ s, lookup t n = some s) (schedule : List Nat) :
    ∃ m, runWorkers start max ⟨t, workersFor todos⟩ schedule = .ok m ∧ m.table = t ∧
      m.workers.length = todos.length ∧
      ∀ (i : Nat) (l : List Str) (w : Worker), todos[i]? = some l → m.workers[i]? = some w → Served t l w := by
  suffices hs : ∀ (schedule : List Nat) (m : Machine), m.table = t → m.workers.length = todos.length →
      (∀ (i : Nat) (l : List Str) (w : Worker), todos[i]? = some l → m.workers[i]? = some w → Served t l w) →
      ∃ m', runWorkers start max m schedule = .ok m' ∧ m'.table = t ∧ m'.workers.length = todos.length ∧
        ∀ (i : Nat) (l : List Str) (w : Worker), todos[i]? = some l → m'.workers[i]? = some w → Served t l w by
    refine hs schedule _ rfl (by simp [workersFor]) ?_
    intro i l w hl hw
    simp only [workersFor, List.getElem?_map, hl, Option.map_some, Option.some.injEq] at hw
    subst hw
    exact ⟨by simp, by simp⟩
  intro schedule
  induction schedule with
  | nil => intro m h1 h2 h3; exact ⟨m, rfl, h1, h2, h3⟩
  | cons i is ih =>
    intro m h1 h2 h3
    unfold runWorkers
    have hstep : ∃ m', stepWorker start max m i = .ok m' ∧ m'.table = t ∧ m'.workers.length = todos.length ∧
        ∀ (i : Nat) (l : List Str) (w : Worker), todos[i]? = some l → m'.workers[i]? = some w → Served t l w := by
      unfold stepWorker
      cases hw : m.workers[i]? with
      | none => exact ⟨m, rfl, h1, h2, h3⟩
      | some w =>
        have hi : i < todos.length := by
          rw [← h2]
          by_contra hne
          rw [List.getElem?_eq_none (by omega)] at hw
          cases hw
        have hl : todos[i]? = some todos[i] := List.getElem?_eq_getElem hi
        have hsv := h3 i todos[i] w hl hw
        have hmem : todos[i] ∈ todos := List.getElem_mem hi
        have hset : ∀ (v : Worker), Served t todos[i] v → ∀ (j : Nat) (l : List Str) (u : Worker),
            todos[j]? = some l → (m.workers.set i v)[j]? = some u → Served t l u := by
          intro v hv j l u hj hu
          rw [List.getElem?_set] at hu
          split at hu
          · next hij =>
            subst hij
            split at hu
            · simp only [Option.some.injEq] at hu
              subst hu
              rw [hl] at hj
              cases hj
              exact hv
            · cases hu
          · exact h3 j l u hj hu
        cases hpc : w.pc with
        | idle =>
          cases htd : w.todo with
          | nil => simp only [hpc, htd]; exact ⟨m, rfl, h1, h2, h3⟩
          | cons n rest =>
            simp only [hpc, htd]
            refine ⟨_, rfl, h1, by simp [h2], hset _ ?_⟩
            unfold Served at hsv ⊢
            simp only [hpc, htd, List.append_nil] at hsv
            refine ⟨?_, hsv.2⟩
            simp only [List.append_assoc, List.singleton_append]
            exact hsv.1
        | inside n =>
          simp only [hpc]
          have hn : n ∈ todos[i] := by
            rw [← hsv.1, hpc]
            simp
          obtain ⟨s, hs⟩ := hk _ hmem n hn
          rw [h1, styleFor_known hs]
          simp only [Outcome.ok_bind, ne_eq, not_true_eq_false, false_and, if_false]
          refine ⟨_, rfl, rfl, by simp [h2], hset _ ?_⟩
          unfold Served at hsv ⊢
          simp only [hpc, List.append_assoc, List.singleton_append] at hsv
          refine ⟨?_, ?_⟩
          · simp only [List.map_append, List.map_cons, List.map_nil, List.append_assoc, List.nil_append,
              List.singleton_append]
            exact hsv.1
          · intro p hp
            rcases List.mem_append.mp hp with hp | hp
            · exact hsv.2 p hp
            · rw [List.mem_singleton] at hp
              subst hp
              exact hs
    obtain ⟨m', hm, h1', h2', h3'⟩ := hstep
    rw [hm]
    simp only [Outcome.ok_bind]
    exact ih m' h1' h2' h3'

/-- **C134**, for a single thread: there is never a data race. -/
theorem one_thread_no_race (start max : Int) (t : Table) (l : List Str) (schedule : List Nat) :
    runWorkers start max ⟨t, workersFor [l]⟩ schedule ≠ .ub := by
  suffices hs : ∀ (schedule : List Nat) (m : Machine), m.workers.length = 1 →
      runWorkers start max m schedule ≠ .ub from hs schedule _ rfl
  intro schedule
  induction schedule with
  | nil => intro m _ h; cases h
  | cons i is ih =>
    intro m hm
    unfold runWorkers
    have hstep : stepWorker start max m i ≠ .ub ∧
        ∀ m', stepWorker start max m i = .ok m' → m'.workers.length = 1 := by
      unfold stepWorker
      split
      · exact ⟨by simp, fun m' h => by cases h; exact hm⟩
      · next w hw =>
        have hi : i = 0 := by
          by_contra hne
          rw [List.getElem?_eq_none (by omega)] at hw
          cases hw
        split
        · split
          · exact ⟨by simp, fun m' h => by cases h; exact hm⟩
          · exact ⟨by simp, fun m' h => by cases h; simpa using hm⟩
        · next name _ =>
          have hnil : m.workers.eraseIdx i = [] := by
            rw [hi]
            apply List.length_eq_zero_iff.mp
            rw [List.length_eraseIdx]
            simp [hm]
          rw [hnil]
          cases hs : styleFor start max m.table name with
          | ub => exact absurd hs (styleFor_not_ub _ _ _ _)
          | error => exact ⟨by simp, fun m' h => by cases h⟩
          | ok r =>
            simp only [Outcome.ok_bind, List.any_nil, Bool.false_eq_true, and_false, if_false]
            exact ⟨by simp, fun m' h => by cases h; simpa using hm⟩
    intro h
    rw [Outcome.bind_eq_ub] at h
    rcases h with h | ⟨m', h1, h2⟩
    · exact hstep.1 h
    · exact ih m' (hstep.2 m' h1) h2

-- two threads that ask for styles of the lights above
example : ∀ l ∈ [[lit "hall", lit "yard"], [lit "yard"]], ∀ n ∈ l,
    ∃ s, lookup [(lit "hall", 32), (lit "yard", 33)] n = some s := by
  intro l hl n hn
  simp only [List.mem_cons, List.not_mem_nil, or_false] at hl
  rcases hl with rfl | rfl
  · simp only [List.mem_cons, List.not_mem_nil, or_false] at hn
    rcases hn with rfl | rfl
    · exact ⟨32, by decide +kernel⟩
    · exact ⟨33, by decide +kernel⟩
  · simp only [List.mem_cons, List.not_mem_nil, or_false] at hn
    subst hn
    exact ⟨33, by decide +kernel⟩

end Verif.Styles
