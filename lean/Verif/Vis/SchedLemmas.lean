import Verif.Vis.Sched
import Verif.Vis.FlowLemmas

set_option linter.unusedSectionVars false

namespace Verif.Vis

variable {Leaf Portal W C : Type} [DecidableEq Leaf] [DecidableEq Portal] {G : Graph Leaf Portal}

theorem foldl_inv {α β : Type} {P : β → Prop} {f : β → α → β} {l : List α} {b : β} (h0 : P b)
    (h : ∀ b, P b → ∀ a ∈ l, P (f b a)) : P (l.foldl f b) := by
  induction l generalizing b with
  | nil => exact h0
  | cons a l ih =>
    exact ih (h b h0 a List.mem_cons_self) (fun b hb x hx => h b hb x (List.mem_cons_of_mem _ hx))

omit [DecidableEq Leaf] in
@[simp] theorem upd_self (ps : Portal → PS Leaf) (p : Portal) (v : PS Leaf) : upd ps p v p = v := by
  simp [upd]

omit [DecidableEq Leaf] in
theorem upd_ne (ps : Portal → PS Leaf) {p q : Portal} (v : PS Leaf) (h : q ≠ p) :
    upd ps p v q = ps q := by simp [upd, h]

/-! ### GetNextPortal -/

omit [DecidableEq Leaf] [DecidableEq Portal] in
theorem getNextLoop_spec (ps : Portal → PS Leaf) (l : List Portal) (min : Nat) (ret : Option Portal) :
    (getNextLoop ps l min ret = ret ∧ ∀ p ∈ l, (ps p).status = .none → min ≤ (ps p).num) ∨
    (∃ a p b, l = a ++ p :: b ∧ getNextLoop ps l min ret = some p ∧ (ps p).status = .none ∧
      (ps p).num < min ∧ (∀ q ∈ a, (ps q).status = .none → (ps p).num < (ps q).num) ∧
      (∀ q ∈ b, (ps q).status = .none → (ps p).num ≤ (ps q).num)) := by
  induction l generalizing min ret with
  | nil => left; simp [getNextLoop]
  | cons x l ih =>
    unfold getNextLoop
    split
    · rename_i hx
      right
      rcases ih (ps x).num (some x) with ⟨e, h⟩ | ⟨a, p, b, e1, e2, h1, h2, h3, h4⟩
      · exact ⟨[], x, l, rfl, e, hx.2, hx.1, by simp, h⟩
      · refine ⟨x :: a, p, b, by rw [e1]; rfl, e2, h1, Nat.lt_trans h2 hx.1, ?_, h4⟩
        intro q hq hs
        rcases List.mem_cons.1 hq with rfl | hq
        · exact h2
        · exact h3 q hq hs
    · rename_i hx
      have hx' : (ps x).status = .none → min ≤ (ps x).num := fun h =>
        Nat.le_of_not_lt fun h' => hx ⟨h', h⟩
      rcases ih min ret with ⟨e, h⟩ | ⟨a, p, b, e1, e2, h1, h2, h3, h4⟩
      · left
        refine ⟨e, ?_⟩
        intro p hp hs
        rcases List.mem_cons.1 hp with rfl | hp
        · exact hx' hs
        · exact h p hp hs
      · right
        refine ⟨x :: a, p, b, by rw [e1]; rfl, e2, h1, h2, ?_, h4⟩
        intro q hq hs
        rcases List.mem_cons.1 hq with rfl | hq
        · exact Nat.lt_of_lt_of_le h2 (hx' hs)
        · exact h3 q hq hs

/-! ### effects of PortalCompleted -/

/-- A way to prove that something survives `PortalCompleted`: it survives every single
`UpdateMightsee` that clears a bit found dead in a state where it held. -/
theorem portalCompleted_inv (P : (Portal → PS Leaf) → Prop) (ps : Portal → PS Leaf) (c : Portal)
    (h0 : P (upd ps c { ps c with status := .done }))
    (Dead : Leaf → Leaf → Prop)
    (hdead : ∀ ps p X, P ps → G.owner p = G.dest c → (ps p).status = .done →
      survives G ps (G.dest c) p X = true → Dead X (G.dest c))
    (hstep : ∀ ps X M p, P ps → Dead X M → G.owner p = X → P (updateOne M ps p)) :
    P (portalCompleted G ps c) := by
  unfold portalCompleted
  apply foldl_inv h0
  intro ps hps p hp
  unfold completedPortal
  split
  · exact hps
  · rename_i hst
    have hst : (ps p).status = .done := by simpa using hst
    -- the status of `p` does not change inside the loop
    have : (P (G.blocks.foldl (completedBlock G (G.dest c) p) ps) ∧
        (G.blocks.foldl (completedBlock G (G.dest c) p) ps p).status = .done) := by
      apply foldl_inv (P := fun ps => P ps ∧ (ps p).status = .done) ⟨hps, hst⟩
      rintro ps ⟨hps, hst⟩ block _
      unfold completedBlock
      apply foldl_inv (P := fun ps => P ps ∧ (ps p).status = .done) ⟨hps, hst⟩
      rintro ps' ⟨hps', hst'⟩ X hX
      have hD := hdead ps p X hps ((G.mem_out _ _).1 hp) hst (List.mem_filter.1 hX).2
      unfold updateMightsee
      apply foldl_inv (P := fun ps => P ps ∧ (ps p).status = .done) ⟨hps', hst'⟩
      rintro ps'' ⟨hps'', hst''⟩ q hq
      refine ⟨hstep _ _ _ _ hps'' hD ((G.mem_out _ _).1 hq), ?_⟩
      unfold updateOne
      split
      · exact hst''
      split
      · unfold upd; split
        · rename_i e; subst e; exact hst''
        · exact hst''
      · exact hst''
    exact this.1

theorem updateOne_status (M : Leaf) (ps : Portal → PS Leaf) (p q : Portal) :
    (updateOne M ps p q).status = (ps q).status ∧ (updateOne M ps p q).vis = (ps q).vis ∧
    (∀ L, (updateOne M ps p q).might L = true → (ps q).might L = true) := by
  unfold updateOne
  split
  · exact ⟨rfl, rfl, fun _ h => h⟩
  split
  · unfold upd; split
    · rename_i e; subst e
      refine ⟨rfl, rfl, ?_⟩
      intro L; dsimp only; split
      · intro h; cases h
      · exact fun h => h
    · exact ⟨rfl, rfl, fun _ h => h⟩
  · exact ⟨rfl, rfl, fun _ h => h⟩

theorem portalCompleted_status (ps : Portal → PS Leaf) (c q : Portal) :
    (portalCompleted G ps c q).status = (if q = c then .done else (ps q).status) ∧
    (portalCompleted G ps c q).vis = (ps q).vis ∧
    (∀ L, (portalCompleted G ps c q).might L = true → (ps q).might L = true) := by
  apply portalCompleted_inv (G := G) (fun r => (r q).status = (if q = c then .done else (ps q).status) ∧
    (r q).vis = (ps q).vis ∧ (∀ L, (r q).might L = true → (ps q).might L = true)) ps c _ (fun _ _ => True)
  · intros; trivial
  · intro r X M p h _ _
    obtain ⟨a, b, d⟩ := updateOne_status M r p q
    exact ⟨a.trans h.1, b.trans h.2.1, fun L hL => h.2.2 L (d L hL)⟩
  · unfold upd; split
    · rename_i e; subst e; exact ⟨rfl, rfl, fun _ h => h⟩
    · exact ⟨rfl, rfl, fun _ h => h⟩

theorem portalCompleted_frozen (ps : Portal → PS Leaf) (c q : Portal) (hq : q ≠ c)
    (hs : (ps q).status ≠ .none) : portalCompleted G ps c q = ps q := by
  apply portalCompleted_inv (G := G) (fun r => r q = ps q) ps c _ (fun _ _ => True)
  · intros; trivial
  · intro r X M p h _ _
    unfold updateOne
    split
    · exact h
    split
    · by_cases e : q = p
      · subst e; rename_i hn _; rw [h] at hn; exact absurd hs hn
      · rw [upd_ne _ _ e]; exact h
    · exact h
  · exact upd_ne _ _ hq

/-- `nummightsee` is the number of `mightsee` bits. -/
def Counted (G : Graph Leaf Portal) (ps : Portal → PS Leaf) : Prop :=
  ∀ p, (ps p).num = popcount G (ps p).might

omit [DecidableEq Portal] in
theorem countP_clear {l : List Leaf} (hn : l.Nodup) {b : Leaf → Bool} {L : Leaf} (hL : L ∈ l)
    (hb : b L = true) : l.countP b = l.countP (fun M => if M = L then false else b M) + 1 := by
  have e : b = mark (fun M => if M = L then false else b M) L := by
    funext M
    by_cases h : M = L
    · subst h; simp [mark, hb]
    · simp [mark, h]
  conv => lhs; rw [e]
  exact countP_mark hn hL (by simp)

theorem updateOne_counted (hlen : G.leafs.length < 2 ^ 31 - 1) (M : Leaf) (ps : Portal → PS Leaf)
    (p : Portal) (h : Counted G ps) : Counted G (updateOne M ps p) := by
  unfold updateOne
  split
  · exact h
  split
  · rename_i hm
    intro q
    unfold upd
    split
    · rename_i e; subst e
      dsimp only
      have h1 := countP_clear G.nodup_leafs (G.mem_leafs M) hm
      have h2 : G.leafs.countP (ps q).might ≤ G.leafs.length := List.countP_le_length
      rw [h q]
      unfold popcount
      omega
    · exact h q
  · exact h

theorem portalCompleted_counted (hlen : G.leafs.length < 2 ^ 31 - 1) (ps : Portal → PS Leaf)
    (c : Portal) (h : Counted G ps) : Counted G (portalCompleted G ps c) := by
  apply portalCompleted_inv (G := G) (Counted G) ps c _ (fun _ _ => True)
  · intros; trivial
  · intro r X M p h _ _; exact updateOne_counted hlen M r p h
  · intro q
    unfold upd; split
    · rename_i e; subst e; exact h q
    · exact h q

omit [DecidableEq Leaf] [DecidableEq Portal] in
theorem popcount_lt (hlen : G.leafs.length < 2 ^ 31 - 1) (b : Leaf → Bool) :
    popcount G b < 2 ^ 31 - 1 := by
  have : G.leafs.countP b ≤ G.leafs.length := List.countP_le_length
  unfold popcount; omega

omit [DecidableEq Leaf] [DecidableEq Portal] in
theorem getNext_some (ps : Portal → PS Leaf) {p : Portal} (h : getNext G ps = some p) :
    (ps p).status = .none := by
  rcases getNextLoop_spec ps G.portals (2 ^ 31 - 1) none with ⟨e, _⟩ | ⟨a, q, b, _, e, hs, _⟩
  · rw [getNext] at h; rw [e] at h; cases h
  · rw [getNext] at h; rw [e] at h; cases h; exact hs

omit [DecidableEq Leaf] [DecidableEq Portal] in
theorem getNext_none (hlen : G.leafs.length < 2 ^ 31 - 1) (ps : Portal → PS Leaf)
    (hc : Counted G ps) (h : getNext G ps = none) (p : Portal) : (ps p).status ≠ .none := by
  intro hs
  rcases getNextLoop_spec ps G.portals (2 ^ 31 - 1) none with ⟨_, h2⟩ | ⟨a, q, b, _, e, _, _⟩
  · have := h2 p (G.mem_portals p) hs
    have := popcount_lt hlen (ps p).might
    rw [hc p] at *
    omega
  · rw [getNext] at h; rw [e] at h; cases h

/-! ### the scheduler invariant -/

omit [DecidableEq Leaf] in
theorem countP_upd {l : List Portal} (hn : l.Nodup) (ps : Portal → PS Leaf) {p : Portal}
    (hp : p ∈ l) {v : PS Leaf} (h1 : (ps p).status = .none) (h2 : v.status ≠ .none) :
    l.countP (fun q => decide ((ps q).status = .none)) =
      l.countP (fun q => decide ((upd ps p v q).status = .none)) + 1 := by
  have := countP_clear (Leaf := Portal) hn (b := fun q => decide ((ps q).status = .none)) hp (by simp [h1])
  rw [this]
  congr 1
  apply List.countP_congr
  intro x _
  unfold upd
  split <;> simp [h2]

/-- The portal was not done at the start and its flow is running or over. -/
def FlowBegun (ps0 : Portal → PS Leaf) (s : Sys Leaf Portal) (p : Portal) : Prop :=
  (ps0 p).status ≠ .done ∧ ((s.ps p).status = .done ∨ p ∈ s.active.map Prod.fst)

/-- What holds in every reachable state of the scheduler started from `ps0`. -/
structure SInv (G : Graph Leaf Portal) (ps0 : Portal → PS Leaf) (s : Sys Leaf Portal) : Prop where
  counted : Counted G s.ps
  pending : G.portals.countP (fun p => decide ((s.ps p).status = .none)) = s.pending
  nodup : (s.taken ++ s.active.map Prod.fst).Nodup
  working : ∀ p, (s.ps p).status = .working ↔ p ∈ s.taken ++ s.active.map Prod.fst
  reflowed : s.reflowed = false
  log : ∀ p, (FlowBegun ps0 s p → s.flowed.count p = 1) ∧ (¬ FlowBegun ps0 s p → s.flowed.count p = 0)
  started : ∀ p, (ps0 p).status = .done → (s.ps p).status = .done
  observed : ∀ x ∈ s.active, ∀ q L, x.2 q L ((s.ps q).might L)

omit [DecidableEq Leaf] [DecidableEq Portal] in
theorem observe_active (s : Sys Leaf Portal) :
    (observe s).active.map Prod.fst = s.active.map Prod.fst := by
  simp [observe, Function.comp_def]

/-- `observe` only has to be dealt with once. -/
theorem sinv_observe {ps0 : Portal → PS Leaf} {s : Sys Leaf Portal} (counted : Counted G s.ps)
    (pending : G.portals.countP (fun p => decide ((s.ps p).status = .none)) = s.pending)
    (nodup : (s.taken ++ s.active.map Prod.fst).Nodup)
    (working : ∀ p, (s.ps p).status = .working ↔ p ∈ s.taken ++ s.active.map Prod.fst)
    (reflowed : s.reflowed = false)
    (log : ∀ p, (FlowBegun ps0 s p → s.flowed.count p = 1) ∧
      (¬ FlowBegun ps0 s p → s.flowed.count p = 0))
    (started : ∀ p, (ps0 p).status = .done → (s.ps p).status = .done) : SInv G ps0 (observe s) where
  counted := counted
  pending := pending
  nodup := by rw [observe_active]; exact nodup
  working := by rw [observe_active]; exact working
  reflowed := reflowed
  log := by unfold FlowBegun; rw [observe_active]; exact log
  started := started
  observed := by
    intro x hx q L
    simp only [observe, List.mem_map] at hx
    obtain ⟨y, _, rfl⟩ := hx
    exact .inr (.inl rfl)

theorem nodup_move {α} {p : α} {a b c : List α} (h : ((a ++ p :: b) ++ c).Nodup) :
    ((a ++ b) ++ p :: c).Nodup := by
  have : List.Perm ((a ++ p :: b) ++ c) ((a ++ b) ++ p :: c) := by
    have h1 : List.Perm (a ++ p :: b) (p :: (a ++ b)) := List.perm_middle
    have h2 : List.Perm ((a ++ b) ++ p :: c) (p :: ((a ++ b) ++ c)) := List.perm_middle
    exact (h1.append_right c).trans h2.symm
  exact this.nodup_iff.1 h

theorem sinv_step (hlen : G.leafs.length < 2 ^ 31 - 1) (w : Tests Portal W C) {ps0 : Portal → PS Leaf}
    {s t : Sys Leaf Portal} (hs : SInv G ps0 s) (h : Step G w s t) : SInv G ps0 t := by
  cases h with
  | take n p hn hp =>
    have hnone := getNext_some _ hp
    have hnot : p ∉ s.taken ++ s.active.map Prod.fst := by
      rw [← hs.working p, hnone]; simp
    apply sinv_observe
    · intro q; dsimp only; unfold upd; split
      · rename_i e; subst e; exact hs.counted q
      · exact hs.counted q
    · have := countP_upd (v := { s.ps p with status := .working }) G.nodup_portals s.ps
        (G.mem_portals p) hnone (by simp)
      exact Nat.add_right_cancel (this.symm.trans (hs.pending.trans hn))
    · dsimp only; rw [List.cons_append, List.nodup_cons]; exact ⟨hnot, hs.nodup⟩
    · intro q
      dsimp only
      by_cases e : q = p
      · subst e; simp
      · rw [upd_ne _ _ e, hs.working q]; simp [e]
    · exact hs.reflowed
    · intro q
      have : FlowBegun ps0 { s with
          ps := upd s.ps p { s.ps p with status := .working }, pending := n, taken := p :: s.taken } q ↔ FlowBegun ps0 s q := by
        unfold FlowBegun
        by_cases e : q = p
        · subst e; simp [hnone]
        · simp [upd_ne _ _ e]
      rw [this]; exact hs.log q
    · intro q hq
      dsimp only
      have := hs.started q hq
      by_cases e : q = p
      · subst e; rw [hnone] at this; cases this
      · rw [upd_ne _ _ e]; exact this
  | idle n hn hp =>
    exfalso
    have h0 : G.portals.countP (fun p => decide ((s.ps p).status = .none)) = 0 := by
      rw [List.countP_eq_zero]
      intro p _
      simpa using getNext_none hlen _ hs.counted hp p
    have := hs.pending
    omega
  | start a b p ht hw =>
    have hmem : ∀ q, q ∈ (a ++ b) ++ (p :: s.active.map Prod.fst) ↔
        q ∈ s.taken ++ s.active.map Prod.fst := by
      intro q; rw [ht]; simp only [List.mem_append, List.mem_cons]
      constructor
      · rintro ((h | h) | h | h) <;> simp [h]
      · rintro ((h | h | h) | h) <;> simp [h]
    have hn := hs.nodup
    rw [ht] at hn
    have hnot : p ∉ s.active.map Prod.fst := by
      intro h
      rw [List.nodup_append] at hn
      exact hn.2.2 p (by simp) p h rfl
    apply sinv_observe
    · exact hs.counted
    · exact hs.pending
    · exact nodup_move hn
    · intro q; dsimp only; rw [List.map_cons, hmem q]; exact hs.working q
    · exact hs.reflowed
    · intro q
      dsimp only
      rw [List.count_cons]
      by_cases e : q = p
      · subst e
        have h0 : (ps0 q).status ≠ .done := fun h => by
          have := hs.started q h; rw [hw] at this; cases this
        have h1 : ¬ FlowBegun ps0 s q := by
          rintro ⟨_, h | h⟩
          · rw [hw] at h; cases h
          · exact hnot h
        refine ⟨fun _ => by simp [(hs.log q).2 h1], fun h => absurd ⟨h0, .inr (by simp)⟩ h⟩
      · have h1 : (p == q) = false := by simp [Ne.symm e]
        have : FlowBegun ps0 { s with
            taken := a ++ b, active := (p, fun _ _ _ => False) :: s.active, flowed := p :: s.flowed } q ↔ FlowBegun ps0 s q := by
          simp [FlowBegun, e]
        rw [this]
        simpa [h1] using hs.log q
    · exact hs.started
  | reflow a b p ht hw =>
    exfalso
    exact hw ((hs.working p).2 (by rw [ht]; simp))
  | finish a b p obs o ha hc hobs =>
    have hmem : p ∈ s.taken ++ s.active.map Prod.fst := by rw [ha]; simp
    have hw := (hs.working p).2 hmem
    have hn := hs.nodup
    have ea : s.active.map Prod.fst = a.map Prod.fst ++ p :: b.map Prod.fst := by rw [ha]; simp
    rw [ea] at hn
    have hn2 : (p :: (s.taken ++ (a ++ b).map Prod.fst)).Nodup := by
      have h1 : List.Perm (s.taken ++ (a.map Prod.fst ++ p :: b.map Prod.fst))
          (p :: (s.taken ++ (a ++ b).map Prod.fst)) := by
        rw [List.map_append, ← List.append_assoc, ← List.append_assoc]; exact List.perm_middle
      exact h1.nodup_iff.1 hn
    obtain ⟨hnot, hnd⟩ := List.nodup_cons.1 hn2
    have hst := fun q => portalCompleted_status (G := G)
      (upd s.ps p { s.ps p with vis := portalFlow G o p (s.ps p).might }) p q
    have hstat : ∀ q, (portalCompleted G (upd s.ps p { s.ps p with
        vis := portalFlow G o p (s.ps p).might }) p q).status = if q = p then .done else (s.ps q).status := by
      intro q
      rw [(hst q).1]
      by_cases e : q = p
      · simp [e]
      · simp [e, upd_ne]
    apply sinv_observe
    · apply portalCompleted_counted hlen
      intro q; unfold upd; split
      · rename_i e; subst e; exact hs.counted q
      · exact hs.counted q
    · rw [← hs.pending]
      apply List.countP_congr
      intro q _
      dsimp only
      rw [hstat q]
      by_cases e : q = p
      · subst e; simp [hw]
      · simp [e]
    · exact hnd
    · intro q
      dsimp only
      rw [hstat q]
      by_cases e : q = p
      · subst e; simp only [↓reduceIte]
        constructor
        · intro h; cases h
        · intro h; exact absurd h hnot
      · simp only [e, ↓reduceIte]
        rw [hs.working q, ea]
        simp [e]
    · exact hs.reflowed
    · intro q
      have : FlowBegun ps0 { s with
          ps := portalCompleted G (upd s.ps p { s.ps p with vis := portalFlow G o p (s.ps p).might }) p,
          active := a ++ b } q ↔ FlowBegun ps0 s q := by
        unfold FlowBegun
        simp only [ea]
        rw [hstat q]
        by_cases e : q = p
        · subst e; simp
        · simp [e]
      rw [this]; exact hs.log q
    · intro q hq
      dsimp only
      rw [hstat q]
      split
      · rfl
      · exact hs.started q hq

theorem sinv_start {ps0 : Portal → PS Leaf} (hc : Counted G ps0)
    (hw : ∀ p, (ps0 p).status ≠ .working) : SInv G ps0 (start G ps0) where
  counted := hc
  pending := by
    show _ = G.portals.length - _
    have h := List.length_eq_countP_add_countP (fun p => decide ((ps0 p).status = .done)) (l := G.portals)
    have : G.portals.countP (fun p => decide ((ps0 p).status = .none)) =
        G.portals.countP (fun p => !decide ((ps0 p).status = .done)) := by
      apply List.countP_congr
      intro p _
      have := hw p
      cases h : (ps0 p).status <;> simp_all
    have e : (start G ps0).ps = ps0 := rfl
    rw [e, this]
    simp only [decide_eq_true_eq] at h
    have h2 : G.portals.countP (fun p => !decide ((ps0 p).status = .done)) =
        G.portals.countP (fun p => decide (¬ (ps0 p).status = .done)) := by
      apply List.countP_congr; intro p _; simp
    omega
  nodup := by simp [start]
  working := by intro p; simp [start, hw p]
  reflowed := rfl
  log := by
    intro p
    refine ⟨?_, fun _ => by simp [start]⟩
    rintro ⟨h, h' | h'⟩
    · exact absurd h' h
    · simp [start] at h'
  started := fun _ h => h
  observed := by simp [start]

theorem sinv_steps (hlen : G.leafs.length < 2 ^ 31 - 1) (w : Tests Portal W C) {ps0 : Portal → PS Leaf}
    {s t : Sys Leaf Portal} (hs : SInv G ps0 s) (h : Steps G w s t) : SInv G ps0 t := by
  induction h with
  | refl => exact hs
  | step _ h ih => exact sinv_step hlen w ih h

/-! ### conservativeness -/

/-- What holds of the portals in every reachable state. -/
structure Good (S : Sight G) (base : Portal → Leaf → Bool) (ps : Portal → PS Leaf) : Prop where
  might : ∀ p L, Sees G S p L → (ps p).might L = true
  vis : ∀ p L, (ps p).status = .done → Sees G S p L → (ps p).vis L = true
  mightSelf : ∀ p, (ps p).might (G.dest p) = true
  visSelf : ∀ p, (ps p).status = .done → (ps p).vis (G.dest p) = true
  mightBase : ∀ p L, (ps p).might L = true → base p L = true
  visBase : ∀ p L, (ps p).status = .done → (ps p).vis L = true → base p L = true

/-- No portal of leaf `X` sees `M` or leads into it. -/
def Dead (S : Sight G) (X M : Leaf) : Prop := ∀ p, G.owner p = X → ¬ Sees G S p M ∧ G.dest p ≠ M

theorem survives_dead (S : Sight G) {base : Portal → Leaf → Bool} {ps : Portal → PS Leaf}
    (h : Good S base ps) {p : Portal} {M X : Leaf} (hd : (ps p).status = .done)
    (hs : survives G ps M p X = true) : Dead S X M := by
  simp only [survives, Bool.and_eq_true, Bool.not_eq_true', List.all_eq_true, Bool.or_eq_true,
    decide_eq_true_eq] at hs
  obtain ⟨⟨_, hvis⟩, hall⟩ := hs
  have key : ∀ r, G.owner r = M → ((ps r).status = .done → (ps r).vis X = false) ∧
      ((ps r).status ≠ .done → (ps r).might X = false) := by
    intro r hr
    rcases hall r ((G.mem_out _ _).2 hr) with e | e
    · subst e; exact ⟨fun _ => hvis, fun h => absurd hd h⟩
    · split at e
      · rename_i hd'; exact ⟨fun _ => by simpa using e, fun h => absurd hd' h⟩
      · rename_i hd'; exact ⟨fun h => absurd h hd', fun _ => by simpa using e⟩
  intro q hq
  constructor
  · intro hsee
    obtain ⟨r, hr, hsee'⟩ := leafSees_symm S ⟨q, hq, hsee⟩
    by_cases hst : (ps r).status = .done
    · have := (key r hr).1 hst; rw [h.vis r X hst hsee'] at this; cases this
    · have := (key r hr).2 hst; rw [h.might r X hsee'] at this; cases this
  · intro hM
    have hr : G.owner (G.rev q) = M := by rw [G.owner_rev, hM]
    have hX : G.dest (G.rev q) = X := by rw [G.dest_rev, hq]
    by_cases hst : (ps (G.rev q)).status = .done
    · have := (key _ hr).1 hst; rw [← hX, h.visSelf _ hst] at this; cases this
    · have := (key _ hr).2 hst; rw [← hX, h.mightSelf] at this; cases this

theorem updateOne_good (S : Sight G) {base : Portal → Leaf → Bool} {ps : Portal → PS Leaf}
    (h : Good S base ps) {X M : Leaf} (hd : Dead S X M) {p : Portal} (hp : G.owner p = X) :
    Good S base (updateOne M ps p) := by
  unfold updateOne
  split
  · exact h
  split
  · have hdp := hd p hp
    constructor
    · intro q L hsee
      unfold upd; split
      · rename_i e; subst e
        have : L ≠ M := fun e => hdp.1 (e ▸ hsee)
        simp [this, h.might q L hsee]
      · exact h.might q L hsee
    · intro q L; unfold upd; split
      · rename_i e; subst e; exact h.vis q L
      · exact h.vis q L
    · intro q; unfold upd; split
      · rename_i e; subst e; simp [hdp.2, h.mightSelf q]
      · exact h.mightSelf q
    · intro q; unfold upd; split
      · rename_i e; subst e; exact h.visSelf q
      · exact h.visSelf q
    · intro q L; unfold upd; split
      · rename_i e; subst e; dsimp only; split
        · intro h; cases h
        · exact h.mightBase q L
      · exact h.mightBase q L
    · intro q L; unfold upd; split
      · rename_i e; subst e; exact h.visBase q L
      · exact h.visBase q L
  · exact h

theorem portalCompleted_good (S : Sight G) {base : Portal → Leaf → Bool} {ps : Portal → PS Leaf}
    {c : Portal} (h0 : Good S base (upd ps c { ps c with status := .done })) :
    Good S base (portalCompleted G ps c) := by
  apply portalCompleted_inv (G := G) (Good S base) ps c h0 (Dead S)
  · intro r p X hr _ hst hs
    exact survives_dead S hr hst hs
  · intro r X M p hr hd hp
    exact updateOne_good S hr hd hp

omit [DecidableEq Leaf] [DecidableEq Portal] in
theorem sees_self (S : Sight G) {p : Portal} {L : Leaf} (h : Sees G S p L) : Sees G S p (G.dest p) :=
  Ext.sees (c := []) ((sees_ext h).self (c := []))

theorem portalFlow_complete (S : Sight G) (o : Oracle Leaf Portal W C) {Ok : List Portal → W → Prop}
    {Kept : List Portal → W → C → Prop} (ho : SoundOracle S o Ok Kept) (p : Portal)
    (might : Leaf → Bool) (hm : ∀ L, Sees G S p L → might L = true) (L : Leaf) (h : Sees G S p L) :
    portalFlow G o p might L = true := by
  refine ((flow_complete S o ho).1 (fun _ => false) (G.dest p) _ _ [] p (ho.tests.start p) rfl rfl (by simp) ?_).1 L (sees_ext h)
  refine ⟨⟨?_, ho.tests.start p⟩, trivial⟩
  rintro L ⟨m, q, a, b, d⟩
  apply hm
  exact Ext.sees (c := []) ⟨m ++ [q], q, by simpa using a, by simpa using b,
    by rw [← List.append_assoc, List.getLast?_concat], d⟩

theorem flow_marks_start (o : Oracle Leaf Portal W C) : 
    (∀ onStack leaf d (s : FState Leaf Portal W), (∀ L, s.vis L = true → (flow G o onStack leaf d s).vis L = true) ∧
      (onStack leaf = false → (flow G o onStack leaf d s).vis leaf = true)) ∧
    (∀ onStack d ps k (s : FState Leaf Portal W), ∀ L, s.vis L = true → (flowLoop G o onStack d ps k s).vis L = true) := by
  apply flow.mutual_induct G o
    (fun onStack leaf d s => (∀ L, s.vis L = true → (flow G o onStack leaf d s).vis L = true) ∧
      (onStack leaf = false → (flow G o onStack leaf d s).vis leaf = true))
    (fun onStack d ps k s => ∀ L, s.vis L = true → (flowLoop G o onStack d ps k s).vis L = true)
  · intro onStack leaf d s h
    rw [flow]; simp [h]
  · intro onStack leaf d s h _ ih
    rw [flow]; simp only [h]
    refine ⟨fun L hL => ih L ?_, fun _ => ih leaf ?_⟩
    · rw [maybeTC_vis]; exact mark_mono _ _ _ hL
    · rw [maybeTC_vis]; exact mark_self _ _
  · intro onStack d k s L h; rw [flowLoop]; exact h
  · intro onStack d k s p ps h ih
    rw [flowLoop]; simp only [h, ↓reduceIte]; exact ih
  · intro onStack d k s p ps h might s1 hm ih
    rw [flowLoop]; simp only [h]; rw [if_neg (by simp), if_pos hm]; exact ih
  · intro onStack d k s p ps h might s1 hm k' hcl ih
    rw [flowLoop]; simp only [h]; rw [if_neg (by simp), if_neg hm, hcl]; exact ih
  · intro onStack d k s p ps h might s1 hm k' d' hcl s2 _ ih1 ih2
    rw [flowLoop]; simp only [h]; rw [if_neg (by simp), if_neg hm, hcl]
    exact fun L hL => ih2 L (ih1.1 L hL)

theorem portalFlow_start (o : Oracle Leaf Portal W C) (p : Portal) (might : Leaf → Bool) :
    portalFlow G o p might (G.dest p) = true :=
  ((flow_marks_start (G := G) o).1 _ _ _ _).2 rfl

theorem portalFlow_bounded (o : Oracle Leaf Portal W C) (p : Portal) (might : Leaf → Bool)
    (hp : might (G.dest p) = true) (L : Leaf) (h : portalFlow G o p might L = true) : might L = true :=
  ((flow_bounded (G := G) o might).1 (fun _ => false) (G.dest p) (o.w.start p)
    { vis := fun _ => false, stack := [(p, ⟨might, false, o.w.start p⟩)], tick := 0 } hp (by simp)
    (by
      intro x hx L hL
      rw [List.mem_singleton.1 hx] at hL
      exact hL)).1 L h

/-- The winding tests of a map never reject a stabbed walk: some properties of the windings and planes
kept show it. -/
def SoundTests (S : Sight G) (w : Tests Portal W C) : Prop :=
  ∃ (Ok : List Portal → W → Prop) (Kept : List Portal → W → C → Prop), Sound S w Ok Kept

/-- What holds in every reachable state of the machine. -/
structure VInv (S : Sight G) (base : Portal → Leaf → Bool) (s : Sys Leaf Portal) : Prop where
  good : Good S base s.ps
  obs : ∀ x ∈ s.active, ∀ q L b, x.2 q L b → Sees G S q L → b = true

theorem vinv_observe {S : Sight G} {base : Portal → Leaf → Bool} {s : Sys Leaf Portal}
    (good : Good S base s.ps) (obs : ∀ x ∈ s.active, ∀ q L b, x.2 q L b → Sees G S q L → b = true) :
    VInv S base (observe s) where
  good := good
  obs := by
    intro x hx q L b hb hsee
    simp only [observe, List.mem_map] at hx
    obtain ⟨y, hy, rfl⟩ := hx
    rcases hb with hb | hb | ⟨hd, hb⟩
    · exact obs y hy q L b hb hsee
    · rw [hb]; exact good.might q L hsee
    · rw [hb]; exact good.vis q L hd hsee

theorem good_status {S : Sight G} {base : Portal → Leaf → Bool} {ps : Portal → PS Leaf}
    (h : Good S base ps) (p : Portal) : Good S base (upd ps p { ps p with status := .working }) := by
  constructor
  · intro q L; unfold upd; split
    · rename_i e; subst e; exact h.might q L
    · exact h.might q L
  · intro q L; unfold upd; split
    · intro h; cases h
    · exact h.vis q L
  · intro q; unfold upd; split
    · rename_i e; subst e; exact h.mightSelf q
    · exact h.mightSelf q
  · intro q; unfold upd; split
    · intro h; cases h
    · exact h.visSelf q
  · intro q L; unfold upd; split
    · rename_i e; subst e; exact h.mightBase q L
    · exact h.mightBase q L
  · intro q L; unfold upd; split
    · intro h; cases h
    · exact h.visBase q L

theorem vinv_step (S : Sight G) (w : Tests Portal W C) (hw : SoundTests S w)
    {base : Portal → Leaf → Bool} {s t : Sys Leaf Portal} (hs : VInv S base s) (h : Step G w s t) :
    VInv S base t := by
  cases h with
  | take n p hn hp => exact vinv_observe (good_status hs.good p) hs.obs
  | idle n hn hp => exact vinv_observe hs.good hs.obs
  | start a b p ht hst =>
    refine vinv_observe (by exact hs.good) ?_
    intro x hx q L b hb hsee
    rcases List.mem_cons.1 hx with rfl | hx
    · exact hb.elim
    · exact hs.obs x hx q L b hb hsee
  | reflow a b p ht hst => exact vinv_observe hs.good hs.obs
  | finish a b p obs o ha hc hobs =>
    obtain ⟨Ok, Kept, hw⟩ := hw
    have ho : SoundOracle S o Ok Kept := by
      refine ⟨?_, ?_⟩
      · rw [hc]; exact hw
      · intro t q L hsee
        exact hs.obs (p, obs) (by rw [ha]; simp) q L _ (hobs t q L) hsee
    apply vinv_observe
    · apply portalCompleted_good
      have h := hs.good
      have e : upd (upd s.ps p { s.ps p with vis := portalFlow G o p (s.ps p).might }) p
          { upd s.ps p { s.ps p with vis := portalFlow G o p (s.ps p).might } p with status := .done } =
          upd s.ps p { s.ps p with vis := portalFlow G o p (s.ps p).might, status := .done } := by
        funext q
        unfold upd
        split <;> simp
      rw [e]
      constructor
      · intro q L; unfold upd; split
        · rename_i e; subst e; exact h.might q L
        · exact h.might q L
      · intro q L; unfold upd; split
        · rename_i e; subst e
          intro _ hsee
          exact portalFlow_complete S o ho q _ (h.might q) L hsee
        · exact h.vis q L
      · intro q; unfold upd; split
        · rename_i e; subst e; exact h.mightSelf q
        · exact h.mightSelf q
      · intro q; unfold upd; split
        · rename_i e; subst e
          intro _; exact portalFlow_start o q _
        · exact h.visSelf q
      · intro q L; unfold upd; split
        · rename_i e; subst e; exact h.mightBase q L
        · exact h.mightBase q L
      · intro q L; unfold upd; split
        · rename_i e; subst e
          intro _ hv
          exact h.mightBase q L (portalFlow_bounded o q _ (h.mightSelf q) L hv)
        · exact h.visBase q L
    · intro x hx
      apply hs.obs x
      rw [ha]
      rcases List.mem_append.1 hx with hx | hx <;> simp [hx]

theorem vinv_steps (S : Sight G) (w : Tests Portal W C) (hw : SoundTests S w)
    {base : Portal → Leaf → Bool} {s t : Sys Leaf Portal} (hs : VInv S base s) (h : Steps G w s t) :
    VInv S base t := by
  induction h with
  | refl => exact hs
  | step _ h ih => exact vinv_step S w hw ih h

end Verif.Vis
