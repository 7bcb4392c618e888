import Verif.Vis.SchedLemmas
import Verif.Vis.Load
import Mathlib.Data.List.Induction
import Mathlib.Order.Fin.Basic

/-!
C07 - C11: what vis computes, for every thread schedule.
-/

set_option linter.unusedSectionVars false

namespace Verif.Vis

variable {Leaf Portal W C : Type} [DecidableEq Leaf] [DecidableEq Portal] {G : Graph Leaf Portal}

/-! ### Specification -/

/-- Leafs one can reach from `L` through portals of `see`. -/
inductive Reach (G : Graph Leaf Portal) (see : Portal → Bool) (L : Leaf) : Leaf → Prop
  | start : Reach G see L L
  | step {p : Portal} : Reach G see L (G.owner p) → see p = true → Reach G see L (G.dest p)

/-- Portal tables a vis run can start from: the base table, or what was saved at any moment of an
earlier run. -/
inductive Saved (G : Graph Leaf Portal) (w : Tests Portal W C) (front : Portal → Portal → Bool) :
    (Portal → PS Leaf) → Prop
  | base : Saved G w front (basePS G front)
  | resume {ps s} : Saved G w front ps → Steps G w (start G ps) s → Saved G w front (resume s.ps)

/-- Executions with their number of steps. -/
inductive StepsN (G : Graph Leaf Portal) (w : Tests Portal W C) :
    Nat → Sys Leaf Portal → Sys Leaf Portal → Prop
  | refl (s) : StepsN G w 0 s s
  | step {n s t u} : StepsN G w n s t → Step G w t u → StepsN G w (n + 1) s u

/-- A front test that never rejects a portal that is stabbed from the source portal. -/
def SoundFront (S : Sight G) (front : Portal → Portal → Bool) : Prop :=
  ∀ p m q, IsChain G (p :: m ++ [q]) → S.Stab (p :: m ++ [q]) → front p q = true

/-! ### C08 -/

/-- **C08.**  The portal handed out is unstarted and no unstarted portal has a smaller count. -/
theorem next_portal_is_cheapest (ps : Portal → PS Leaf) {p : Portal} (h : getNext G ps = some p) :
    (ps p).status = .none ∧ ∀ q, (ps q).status = .none → (ps p).num ≤ (ps q).num := by
  rcases getNextLoop_spec ps G.portals (2 ^ 31 - 1) none with ⟨e, _⟩ | ⟨a, x, b, hl, e, hs, _, ha, hb⟩
  · rw [getNext] at h; rw [e] at h; cases h
  · rw [getNext] at h; rw [e] at h; cases h
    refine ⟨hs, fun q hq => ?_⟩
    have hm := G.mem_portals q
    rw [hl] at hm
    rcases List.mem_append.1 hm with hm | hm
    · exact Nat.le_of_lt (ha q hm hq)
    · rcases List.mem_cons.1 hm with rfl | hm
      · exact Nat.le_refl _
      · exact hb q hm hq

/-- **C08**, ties: portals before the one handed out are strictly more expensive. -/
theorem next_portal_is_first (ps : Portal → PS Leaf) {p : Portal} (h : getNext G ps = some p) :
    ∃ a b, G.portals = a ++ p :: b ∧ ∀ q ∈ a, (ps q).status = .none → (ps p).num < (ps q).num := by
  rcases getNextLoop_spec ps G.portals (2 ^ 31 - 1) none with ⟨e, _⟩ | ⟨a, x, b, hl, e, _, _, ha, _⟩
  · rw [getNext] at h; rw [e] at h; cases h
  · rw [getNext] at h; rw [e] at h; cases h
    exact ⟨a, b, hl, ha⟩

/-- **C08.**  With counts below `INT_MAX`, no portal is handed out only if none is unstarted. -/
theorem next_portal_none (ps : Portal → PS Leaf) (hb : ∀ q, (ps q).num < 2 ^ 31 - 1) :
    getNext G ps = none ↔ ∀ q, (ps q).status ≠ .none := by
  constructor
  · intro h q hq
    rcases getNextLoop_spec ps G.portals (2 ^ 31 - 1) none with ⟨_, h2⟩ | ⟨a, x, b, _, e, _⟩
    · have := h2 q (G.mem_portals q) hq; have := hb q; omega
    · rw [getNext] at h; rw [e] at h; cases h
  · intro h
    cases e : getNext G ps with
    | none => rfl
    | some p => exact absurd (getNext_some ps e) (h p)

/-! ### C11 -/

/-- **C11.**  The base flood of portal `p` is exactly what is reachable from its far leaf through
portals passing the front test, and the stored count is the number of leafs in it. -/
theorem base_flood_is_reachability (front : Portal → Portal → Bool) (p : Portal) :
    (∀ L, (basePortal G front p).1 L = true ↔ Reach G (fun q => q ≠ p && front p q) (G.dest p) L) ∧
    (basePortal G front p).2 = popcount G (basePortal G front p).1 := by
  have efun : (fun q => if q = p then false else front p q) = (fun q => q ≠ p && front p q) := by
    funext q; by_cases h : q = p <;> simp [h]
  unfold basePortal
  rw [efun]
  have hc := (flood_closed (G := G) (fun q => q ≠ p && front p q)).1 (G.dest p) (fun _ => false, 0)
  refine ⟨fun L => ⟨?_, ?_⟩, ?_⟩
  · apply (flood_least (G := G) _ (Reach G (fun q => q ≠ p && front p q) (G.dest p)) ?_).1 (G.dest p) _
      .start (by simp)
    intro r hr hs; exact .step hr hs
  · intro h
    induction h with
    | start => exact hc.1
    | step _ hs ih => exact hc.2.1 _ rfl ih hs
  · apply hc.2.2
    simp [popcount]

/-! ### C07 -/

theorem counted_base (front : Portal → Portal → Bool) : Counted G (basePS G front) := fun p =>
  (base_flood_is_reachability front p).2

theorem counted_resume {ps : Portal → PS Leaf} (h : Counted G ps) : Counted G (resume ps) := by
  intro p; unfold resume; split <;> exact h p

theorem resume_idle (ps : Portal → PS Leaf) (p : Portal) : (resume ps p).status ≠ .working := by
  unfold resume; split
  · rename_i h; simp [h]
  · simp

theorem saved_ok (hlen : G.leafs.length < 2 ^ 31 - 1) {w : Tests Portal W C}
    {front : Portal → Portal → Bool} {ps : Portal → PS Leaf} (h : Saved G w front ps) :
    Counted G ps ∧ ∀ p, (ps p).status ≠ .working := by
  induction h with
  | base => exact ⟨counted_base front, fun p => by simp [basePS]⟩
  | resume _ hsteps ih =>
    exact ⟨counted_resume (sinv_steps hlen w (sinv_start ih.1 ih.2) hsteps).counted, resume_idle _⟩

/-- **C07.**  In every state any schedule can reach, "reflowed" has not happened and no portal has
been flowed twice; when all workers are through, every portal is finished and exactly the portals
that were unfinished at the start have been flowed, once each. -/
theorem every_portal_flowed_once (hlen : G.leafs.length < 2 ^ 31 - 1) (w : Tests Portal W C)
    (front : Portal → Portal → Bool) {ps : Portal → PS Leaf} (hps : Saved G w front ps)
    {s : Sys Leaf Portal} (h : Steps G w (start G ps) s) :
    s.reflowed = false ∧ (∀ p, s.flowed.count p ≤ 1) ∧
    (Finished s → ∀ p, (s.ps p).status = .done ∧
      s.flowed.count p = if (ps p).status = .done then 0 else 1) := by
  have hok := saved_ok hlen hps
  have hi := sinv_steps hlen w (sinv_start hok.1 hok.2) h
  refine ⟨hi.reflowed, fun p => ?_, ?_⟩
  · by_cases hb : FlowBegun ps s p
    · exact Nat.le_of_eq ((hi.log p).1 hb)
    · rw [(hi.log p).2 hb]; exact Nat.zero_le 1
  · rintro ⟨h1, h2, h3⟩ p
    have hdone : (s.ps p).status = .done := by
      cases e : (s.ps p).status with
      | done => rfl
      | working => have := (hi.working p).1 e; simp [h2, h3] at this
      | none =>
        have := hi.pending
        rw [h1, List.countP_eq_zero] at this
        have := this p (G.mem_portals p)
        simp [e] at this
    refine ⟨hdone, ?_⟩
    split
    · rename_i hp; exact (hi.log p).2 (fun hb => hb.1 hp)
    · rename_i hp; exact (hi.log p).1 ⟨hp, .inl hdone⟩

/-- **C07**, mutual exclusion: at any moment a portal is being worked on by at most one worker. -/
theorem one_worker_per_portal (hlen : G.leafs.length < 2 ^ 31 - 1) (w : Tests Portal W C)
    (front : Portal → Portal → Bool) {ps : Portal → PS Leaf} (hps : Saved G w front ps)
    {s : Sys Leaf Portal} (h : Steps G w (start G ps) s) :
    (s.taken ++ s.active.map Prod.fst).Nodup :=
  have hok := saved_ok hlen hps
  (sinv_steps hlen w (sinv_start hok.1 hok.2) h).nodup

/-- **C07**, no interference: a worker that completes portal `c` changes nothing of a portal that is
done or that another worker is flowing; what it changes in a waiting portal is only to clear bits that
portal might have seen. -/
theorem completion_leaves_others_alone (ps : Portal → PS Leaf) (c q : Portal)
    (hq : q ≠ c) :
    ((ps q).status ≠ .none → portalCompleted G ps c q = ps q) ∧
    (portalCompleted G ps c q).status = (ps q).status ∧
    (portalCompleted G ps c q).vis = (ps q).vis ∧
    ∀ L, (portalCompleted G ps c q).might L = true → (ps q).might L = true := by
  have h := portalCompleted_status (G := G) ps c q
  rw [if_neg hq] at h
  exact ⟨portalCompleted_frozen ps c q hq, h⟩

/-- **C07**, no deadlock: as long as not all workers are through, some step is possible. -/
theorem some_worker_can_step (hlen : G.leafs.length < 2 ^ 31 - 1) (w : Tests Portal W C)
    (front : Portal → Portal → Bool) {ps : Portal → PS Leaf} (hps : Saved G w front ps)
    {s : Sys Leaf Portal} (h : Steps G w (start G ps) s) (hn : ¬ Finished s) :
    ∃ t, Step G w s t := by
  have hok := saved_ok hlen hps
  have hi := sinv_steps hlen w (sinv_start hok.1 hok.2) h
  cases hp : s.pending with
  | succ n =>
    cases hg : getNext G s.ps with
    | none => exact ⟨_, .idle s n hp hg⟩
    | some p => exact ⟨_, .take s n p hp hg⟩
  | zero =>
    cases ht : s.taken with
    | cons p b => exact ⟨_, .start s [] b p ht ((hi.working p).2 (by simp [ht]))⟩
    | nil =>
      cases ha : s.active with
      | nil => exact absurd ⟨hp, ht, ha⟩ hn
      | cons x b =>
        refine ⟨_, .finish s [] b x.1 x.2
          { w := w, trigger := fun _ => false, test := fun _ q L => (s.ps q).might L } ha rfl ?_⟩
        intro _ q L
        exact hi.observed x (by simp [ha]) q L

/-- **C07**, termination: an execution has at most three steps per unfinished portal. -/
theorem schedule_terminates (w : Tests Portal W C) (ps : Portal → PS Leaf) {n : Nat}
    {s : Sys Leaf Portal} (h : StepsN G w n (start G ps) s) :
    n ≤ 3 * (G.portals.length - G.portals.countP (fun p => (ps p).status = .done)) := by
  have key : ∀ {n s}, StepsN G w n (start G ps) s →
      n + (3 * s.pending + 2 * s.taken.length + s.active.length) ≤ 3 * (start G ps).pending := by
    intro n s h
    generalize hs0 : start G ps = s0 at h
    induction h with
    | refl => subst hs0; simp [start]
    | step _ hst ih =>
      have ih := ih hs0
      cases hst with
      | take n p hn hp => simp only [observe, List.length_map, List.length_cons]; omega
      | idle n hn hp => simp only [observe, List.length_map]; omega
      | start a b p ht hw =>
        simp only [ht, List.length_append, List.length_cons] at ih
        simp only [observe, List.length_map, List.length_cons, List.length_append]; omega
      | reflow a b p ht hw =>
        simp only [ht, List.length_append, List.length_cons] at ih
        simp only [observe, List.length_map, List.length_append]; omega
      | finish a b p obs o ha hc hobs =>
        simp only [ha, List.length_append, List.length_cons] at ih
        simp only [observe, List.length_map, List.length_append]; omega
  have := key h
  have e : (start G ps).pending = G.portals.length - G.portals.countP (fun p => (ps p).status = .done) := rfl
  omega

theorem steps_trans {w : Tests Portal W C} {s t u : Sys Leaf Portal} (h1 : Steps G w s t)
    (h2 : Steps G w t u) : Steps G w s u := by
  induction h2 with
  | refl => exact h1
  | step _ h ih => exact .step ih h

/-- **C07**: from every reachable state the run can be completed; with `schedule_terminates`, every
run that is not stopped ends with all workers through. -/
theorem every_run_can_finish (hlen : G.leafs.length < 2 ^ 31 - 1) (w : Tests Portal W C)
    (front : Portal → Portal → Bool) {ps : Portal → PS Leaf} (hps : Saved G w front ps)
    {s : Sys Leaf Portal} (h : Steps G w (start G ps) s) :
    ∃ t, Steps G w (start G ps) t ∧ Finished t := by
  generalize hm : 3 * s.pending + 2 * s.taken.length + s.active.length = m
  induction m using Nat.strongRecOn generalizing s with
  | ind m ih =>
    by_cases hf : Finished s
    · exact ⟨s, h, hf⟩
    · obtain ⟨t, ht⟩ := some_worker_can_step hlen w front hps h hf
      refine ih _ ?_ (.step h ht) rfl
      subst hm
      cases ht with
      | take n p hn hp => simp only [observe, List.length_map, List.length_cons]; omega
      | idle n hn hp => simp only [observe, List.length_map]; omega
      | start a b p ht hw =>
        simp only [ht, observe, List.length_map, List.length_cons, List.length_append]; omega
      | reflow a b p ht hw =>
        simp only [ht, observe, List.length_map, List.length_append, List.length_cons]; omega
      | finish a b p obs o ha hc hobs =>
        simp only [ha, observe, List.length_map, List.length_append, List.length_cons]; omega

/-! ### C09, C10 -/

theorem base_good (S : Sight G) (front : Portal → Portal → Bool) (hf : SoundFront S front) :
    Good S (fun p => (basePortal G front p).1) (basePS G front) := by
  have self : ∀ p, (basePortal G front p).1 (G.dest p) = true := fun p =>
    ((base_flood_is_reachability front p).1 _).2 .start
  refine ⟨?_, ?_, self, ?_, fun _ _ h => h, ?_⟩
  · intro p L hsee
    refine ((base_flood_is_reachability front p).1 L).2 ?_
    -- every walk from `p` that is stabbed stays within the flood
    have key : ∀ m, IsChain G (p :: m) → S.Stab (p :: m) → ∀ x, (p :: m).getLast? = some x →
        Reach G (fun q => q ≠ p && front p q) (G.dest p) (G.dest x) := by
      intro m
      induction m using List.reverseRecOn with
      | nil => intro _ _ x hx; simp at hx; subst hx; exact .start
      | append_singleton m q ih =>
        intro hc hs x hx
        have e : p :: (m ++ [q]) = (p :: m) ++ [q] := rfl
        rw [e] at hc hs hx
        rw [List.getLast?_concat] at hx
        cases hx
        have hc1 := isChain_append.1 hc
        obtain ⟨y, hy⟩ : ∃ y, (p :: m).getLast? = some y :=
          ⟨_, List.getLast?_eq_some_getLast (by simp)⟩
        have hr := ih hc1.1 (S.prefix_closed _ _ hs) y hy
        have hown := hc1.2.2 y hy q (by simp)
        rw [← hown] at hr
        refine .step hr ?_
        have hne : q ≠ p := by
          have hn := S.no_reentry _ hc hs
          rw [List.map_append, List.nodup_append] at hn
          intro e
          exact hn.2.2 (G.dest p) (by simp) (G.dest q) (by simp) (by rw [e])
        simp [hne, hf p m q hc hs]
    obtain ⟨m, h1, h2, h3⟩ := hsee
    rw [← h3]
    exact key m h1 h2 _ (List.getLast?_eq_some_getLast (by simp))
  · intro p L h; cases h
  · intro p h; cases h
  · intro p L h; cases h

theorem resume_good {S : Sight G} {base : Portal → Leaf → Bool} {ps : Portal → PS Leaf}
    (h : Good S base ps) : Good S base (resume ps) := by
  constructor
  · intro p L hs; unfold resume; split
    · exact h.might p L hs
    · exact h.might p L hs
  · intro p L; unfold resume; split
    · exact h.vis p L
    · intro h; cases h
  · intro p; unfold resume; split
    · exact h.mightSelf p
    · exact h.mightSelf p
  · intro p; unfold resume; split
    · exact h.visSelf p
    · intro h; cases h
  · intro p L; unfold resume; split
    · exact h.mightBase p L
    · exact h.mightBase p L
  · intro p L; unfold resume; split
    · exact h.visBase p L
    · intro h; cases h

theorem saved_good (S : Sight G) (w : Tests Portal W C) (hw : SoundTests S w)
    (front : Portal → Portal → Bool) (hf : SoundFront S front) {ps : Portal → PS Leaf}
    (h : Saved G w front ps) : Good S (fun p => (basePortal G front p).1) ps := by
  induction h with
  | base => exact base_good S front hf
  | resume _ hsteps ih =>
    exact resume_good (vinv_steps S w hw ⟨ih, by simp [start]⟩ hsteps).good

/-- **C09.**  Whatever the schedule, and however often the run was interrupted and resumed: a leaf
a portal sees is in the portal's final visibility set. -/
theorem full_vis_conservative (hlen : G.leafs.length < 2 ^ 31 - 1) (S : Sight G) (w : Tests Portal W C)
    (hw : SoundTests S w) (front : Portal → Portal → Bool) (hf : SoundFront S front)
    {ps : Portal → PS Leaf} (hps : Saved G w front ps) {s : Sys Leaf Portal}
    (h : Steps G w (start G ps) s) (hfin : Finished s) (p : Portal) (L : Leaf) (hsee : Sees G S p L) :
    (s.ps p).vis L = true :=
  (vinv_steps S w hw ⟨saved_good S w hw front hf hps, by simp [start]⟩ h).good.vis p L
    ((every_portal_flowed_once hlen w front hps h).2.2 hfin p).1 hsee

/-- **C09** for the fast mode. -/
theorem fast_vis_conservative (S : Sight G) (front : Portal → Portal → Bool) (hf : SoundFront S front)
    (p : Portal) (L : Leaf) (hsee : Sees G S p L) : (fastPS (basePS G front) p).vis L = true :=
  (base_good S front hf).might p L hsee

/-- The trivial sight in which every portal sees only the leaf behind it: it makes the structural
part of `Good` available without any assumption on the winding tests. -/
def nearSight (G : Graph Leaf Portal) : Sight G where
  Stab c := c.length = 0
  prefix_closed a b h := by simp at h ⊢; simp [h.1]
  suffix_closed a b h := by simp at h ⊢; simp [h.2]
  reversed c h := by simpa using h
  no_reentry c _ h := by
    have : c = [] := List.length_eq_zero_iff.1 h
    simp [this]

/-- **C10.**  Whatever the winding tests and the schedule: what the full flow ends with for a portal
is contained in what `-fast` writes for it. -/
theorem full_vis_within_fast_vis (hlen : G.leafs.length < 2 ^ 31 - 1) (w : Tests Portal W C)
    (front : Portal → Portal → Bool) {ps : Portal → PS Leaf} (hps : Saved G w front ps)
    {s : Sys Leaf Portal} (h : Steps G w (start G ps) s) (hfin : Finished s) (p : Portal) (L : Leaf)
    (hv : (s.ps p).vis L = true) : (fastPS (basePS G front) p).vis L = true := by
  have hw : SoundTests (nearSight G) w := by
    refine ⟨fun _ _ => True, fun _ _ _ => True, ?_⟩
    constructor <;> simp [nearSight]
  have hf : SoundFront (nearSight G) front := by
    intro p m q _ h; simp [nearSight] at h
  exact (vinv_steps _ w hw ⟨saved_good _ w hw front hf hps, by simp [start]⟩ h).good.visBase p L
    ((every_portal_flowed_once hlen w front hps h).2.2 hfin p).1 hv

/-! ### A concrete map

Four leafs in a row, 0 - 1 - 2 - 3; one sees along the row. -/

def row : Graph (Fin 4) (Fin 6) := ofPairs [(0, 1), (1, 2), (2, 3)]

theorem row_increasing (b : Nat) (c : List (Fin 6)) (hc : IsChain row c)
    (h : ∀ p ∈ c, p.val % 2 = b) :
    (c.map row.dest).Pairwise (fun x y => if b = 0 then x < y else y < x) := by
  induction c with
  | nil => exact .nil
  | cons p c ih =>
    have hc' : IsChain row c := by
      cases c with
      | nil => trivial
      | cons q c => exact hc.2
    have hp := ih hc' (fun q hq => h q (List.mem_cons_of_mem _ hq))
    rw [List.map_cons, List.pairwise_cons]
    refine ⟨?_, hp⟩
    cases c with
    | nil => simp
    | cons q c =>
      have step : ∀ p q : Fin 6, p.val % 2 = q.val % 2 → row.owner q = row.dest p →
          (if p.val % 2 = 0 then row.dest p < row.dest q else row.dest q < row.dest p) := by decide
      have h1 := step p q (by rw [h p (by simp), h q (by simp)]) hc.1
      rw [h p (by simp)] at h1
      rw [List.map_cons, List.pairwise_cons] at hp
      intro y hy
      rcases List.mem_cons.1 hy with rfl | hy
      · exact h1
      · have h2 := hp.1 y hy
        split at h1
        · rw [if_pos (by assumption)] at h2 ⊢; exact lt_trans h1 h2
        · rw [if_neg (by assumption)] at h2 ⊢; exact lt_trans h2 h1

/-- Sight along the row: a walk is stabbed if it never turns back. -/
def rowSight : Sight row where
  Stab c := ∃ b < 2, ∀ p ∈ c, p.val % 2 = b
  prefix_closed a b := fun ⟨x, hx, h⟩ => ⟨x, hx, fun p hp => h p (by simp [hp])⟩
  suffix_closed a b := fun ⟨x, hx, h⟩ => ⟨x, hx, fun p hp => h p (by simp [hp])⟩
  reversed c := fun ⟨x, hx, h⟩ => by
    refine ⟨1 - x, by omega, fun p hp => ?_⟩
    simp only [List.map_reverse, List.mem_reverse, List.mem_map] at hp
    obtain ⟨q, hq, rfl⟩ := hp
    have := h q hq
    have key : ∀ q : Fin 6, (row.rev q).val % 2 = 1 - q.val % 2 := by decide
    rw [key, this]
  no_reentry c hc := fun ⟨b, _, h⟩ => by
    have := row_increasing b c hc h
    refine this.imp ?_
    intro x y hxy e
    subst e
    split at hxy <;> exact absurd hxy (lt_irrefl _)

/-- The front test of the row: portals facing the same way. -/
def rowFront (p q : Fin 6) : Bool := p.val % 2 == q.val % 2

/-- Winding tests of the row: a portal survives if it faces the way of the walk. -/
def rowTests : Tests (Fin 6) Unit Unit where
  start _ := ()
  none := ()
  step c _ _ q := ((), if c.all fun p => p.val % 2 == q.val % 2 then some () else none)
  target c _ _ q := ((), c.all fun p => p.val % 2 == q.val % 2)

theorem rowTests_sound : SoundTests rowSight rowTests := by
  refine ⟨fun _ _ => True, fun _ _ _ => True, ?_⟩
  constructor
  · simp
  · simp
  · simp
  · simp
  · rintro c _ _ q _ _ _ ⟨b, _, h⟩
    simp only [rowTests, ne_eq, ite_eq_right_iff, reduceCtorEq, imp_false, List.all_eq_true, beq_iff_eq, not_not]
    intro p hp; rw [h p (by simp [hp]), h q (by simp)]
  · simp
  · rintro c m q _ _ _ _ _ _ ⟨b, _, h⟩
    simp only [rowTests, List.all_eq_true, beq_iff_eq]
    intro p hp; rw [h p (by simp [hp]), h q (by simp)]

-- the hypotheses of the theorems above hold of the row
example : row.leafs.length < 2 ^ 31 - 1 := by decide
example : SoundFront rowSight rowFront := by
  rintro p m q _ ⟨b, _, h⟩
  simp [rowFront, h p (by simp), h q (by simp)]
example : SoundTests rowSight rowTests := rowTests_sound
-- the first portal sees the last leaf, three portals away
example : Sees row rowSight 0 3 := ⟨[2, 4], by simp [IsChain]; decide, ⟨0, by decide, by decide⟩, by decide⟩
-- the base table of the row: the second portal going right floods exactly leafs 2 and 3
example : (basePS row rowFront 2).might 3 = true :=
  ((base_flood_is_reachability (G := row) rowFront 2).1 3).2
    (Reach.step (G := row) (see := fun q => q ≠ 2 && rowFront 2 q) (L := row.dest 2) (p := 4) .start
      (by decide))
example : (basePS row rowFront 2).might 1 = false := by
  cases h : (basePS row rowFront 2).might 1 with
  | false => rfl
  | true =>
    have h' := ((base_flood_is_reachability (G := row) rowFront 2).1 1).1 h
    have key : ∀ L, Reach row (fun q => q ≠ 2 && rowFront 2 q) (row.dest 2) L → 2 ≤ L := by
      intro L hL
      induction hL with
      | start => decide
      | @step p _ hs ih =>
        have key : ∀ p : Fin 6, (p ≠ 2 && rowFront 2 p) = true → 2 ≤ row.owner p → 2 ≤ row.dest p := by
          decide
        exact key p hs ih
    exact absurd (key 1 h') (by decide)
-- portals 1 and 4 tie; 0 is already being worked on
example : getNext row (fun p => ⟨if p = 0 then .working else .none, fun _ => false,
    if p = 0 then 0 else if p = 1 ∨ p = 4 then 1 else 2, fun _ => false⟩) = some 1 := by
  decide
-- a complete run of the row exists, and in it the first portal ends up seeing the last leaf
example : ∃ s, Steps row rowTests (start row (basePS row rowFront)) s ∧ Finished s ∧
    (s.ps 0).vis 3 = true := by
  obtain ⟨s, h, hf⟩ := every_run_can_finish (G := row) (by decide) rowTests rowFront .base (.refl _)
  refine ⟨s, h, hf, ?_⟩
  refine full_vis_conservative (by decide) rowSight rowTests ?_ rowFront ?_ .base h hf 0 3
    ⟨[2, 4], by simp [IsChain]; decide, ⟨0, by decide, by decide⟩, by decide⟩
  · exact rowTests_sound
  · rintro p m q _ ⟨b, _, h⟩
    simp [rowFront, h p (by simp), h q (by simp)]

end Verif.Vis
