import Mathlib.Data.Finset.Card
import Mathlib.Data.Finset.Filter
import Mathlib.Data.Finset.Union
import Verif.Flood.ExitSpec
import Verif.Flood.Bfs
import Verif.Flood.PathProps

namespace Verif.Flood

open Contents Spec

section
variable {contents : Nat → Contents} {ps : List Portal}

/-- The portals of a leaf, with the leafs behind them. -/
abbrev nxt (ps : List Portal) (v : Nat) : List (Nat × Nat) := neighbours (fun _ => true) ps v

theorem mem_nxt {v k w : Nat} : (k, w) ∈ nxt ps v ↔ ∃ p, ps[k]? = some p ∧ Between p v w := by
  unfold nxt
  rw [mem_neighbours]
  simp

theorem nxt_nodup (ps : List Portal) (v : Nat) : (nxt ps v).Nodup := by
  have h : (((portalsOf ps v).filter fun _ => true).map fun x => x.1).Nodup := by
    rw [List.filter_true]
    unfold portalsOf
    rw [List.map_map, List.map_reverse, List.nodup_reverse]
    refine List.Nodup.sublist (l₂ := ps.zipIdx.map Prod.snd) ?_ ?_
    · exact List.Sublist.map _ List.filter_sublist
    · rw [List.zipIdx_map_snd]
      exact List.nodup_range'
  unfold nxt neighbours
  have : (((portalsOf ps v).filter fun _ => true).map fun x => (x.1, across x.2 v)).map Prod.fst = ((portalsOf ps v).filter fun _ => true).map fun x => x.1 := by
    rw [List.map_map]; rfl
  exact List.Nodup.of_map Prod.fst (by rw [this]; exact h)

/-- What a search adds. -/
structure ExitPost (contents : Nat → Contents) (ps : List Portal) (n : Nat) (s t : ExitState) : Prop where
  sub : ∀ m ∈ s.visited, m ∈ t.visited
  self : n ∈ t.visited
  area : ∀ m ∈ t.visited, inAreaPortal contents m = true
  reach : ∀ m ∈ t.visited, m ∈ s.visited ∨ Reaches (Within contents) ps n m
  closed : ∀ m ∈ t.visited, m ∉ s.visited → ∀ q ∈ nxt ps m, (inAreaPortal contents q.2 = true → q.2 ∈ t.visited) ∧ (Free contents q.2 → q ∈ t.exits)
  exits : ∃ new, t.exits = s.exits ++ new ∧ new.Nodup ∧ ∀ e ∈ new, ∃ m ∈ t.visited, m ∉ s.visited ∧ e ∈ nxt ps m ∧ Free contents e.2

/-- The same while the portals of `n` are looked at; `pre` are done. -/
structure ExitLoop (contents : Nat → Contents) (ps : List Portal) (n : Nat) (s : ExitState) (pre : List (Nat × Nat)) (t : ExitState) : Prop where
  sub : ∀ m ∈ s.visited, m ∈ t.visited
  self : n ∈ t.visited
  area : ∀ m ∈ t.visited, inAreaPortal contents m = true
  reach : ∀ m ∈ t.visited, m ∈ s.visited ∨ Reaches (Within contents) ps n m
  closed : ∀ m ∈ t.visited, m ∉ s.visited → m ≠ n → ∀ q ∈ nxt ps m, (inAreaPortal contents q.2 = true → q.2 ∈ t.visited) ∧ (Free contents q.2 → q ∈ t.exits)
  done : ∀ q ∈ pre, (inAreaPortal contents q.2 = true → q.2 ∈ t.visited) ∧ (Free contents q.2 → q ∈ t.exits)
  exits : ∃ new, t.exits = s.exits ++ new ∧ new.Nodup ∧ ∀ e ∈ new, ∃ m ∈ t.visited, m ∉ s.visited ∧ e ∈ nxt ps m ∧ Free contents e.2 ∧ (m = n → e ∈ pre)

theorem free_iff {v : Nat} : (!inAreaPortal contents v && !Q2.isSolid (contents v)) = true ↔ Free contents v := by
  unfold inAreaPortal Free
  simp

/-- A portal that leads into a leaf comes from one leaf only. -/
theorem exit_owner (hne : ∀ p ∈ ps, p.n0 ≠ p.n1) {e : Nat × Nat} {m m' : Nat} (h : e ∈ nxt ps m) (h' : e ∈ nxt ps m') : m = m' := by
  obtain ⟨k, w⟩ := e
  obtain ⟨p, hp, hb⟩ := mem_nxt.1 h
  obtain ⟨p', hp', hb'⟩ := mem_nxt.1 h'
  rw [hp] at hp'
  cases hp'
  have := hne p (List.mem_of_getElem? hp)
  rcases hb with ⟨h1, h2⟩ | ⟨h1, h2⟩ <;> rcases hb' with ⟨h3, h4⟩ | ⟨h3, h4⟩ <;> omega

/-- The leafs not visited yet. -/
def exitLeft (U : Finset Nat) (s : ExitState) : Nat := (U.filter fun x => x ∉ s.visited).card

theorem exitLeft_lt {U : Finset Nat} {s t : ExitState} (hsub : ∀ m ∈ s.visited, m ∈ t.visited) {n : Nat} (hn : n ∈ U) (h1 : n ∉ s.visited) (h2 : n ∈ t.visited) :
    exitLeft U t < exitLeft U s := by
  apply Finset.card_lt_card
  rw [Finset.ssubset_iff_of_subset]
  · exact ⟨n, by simp [hn, h1], by simp [h2]⟩
  · intro x hx
    simp only [Finset.mem_filter] at hx ⊢
    exact ⟨hx.1, fun h => hx.2 (hsub x h)⟩

theorem exit_loop (hne : ∀ p ∈ ps, p.n0 ≠ p.n1) {U : Finset Nat} (hU : ∀ m ∈ U, ∀ q ∈ nxt ps m, q.2 ∈ U) {fuel n : Nat} {s : ExitState} (hn : n ∈ U)
    (hns : n ∉ s.visited) (hl : exitLeft U s ≤ fuel + 1)
    (ih : ∀ m st, m ∈ U → m ∉ st.visited → inAreaPortal contents m = true → (∀ x ∈ st.visited, inAreaPortal contents x = true) → exitLeft U st ≤ fuel →
      ∃ t, findExits contents ps fuel m st = some t ∧ ExitPost contents ps m st t) :
    ∀ (rest pre : List (Nat × Nat)) (cur : ExitState), nxt ps n = pre ++ rest → ExitLoop contents ps n s pre cur →
      ∃ t, rest.foldlM (exitStep contents (findExits contents ps fuel)) cur = some t ∧ ExitLoop contents ps n s (nxt ps n) t := by
  intro rest
  induction rest with
  | nil =>
    intro pre cur hp hi
    rw [List.append_nil] at hp
    exact ⟨cur, rfl, hp ▸ hi⟩
  | cons q rest ihr =>
    intro pre cur hp hi
    have hq : q ∈ nxt ps n := by rw [hp]; simp
    have hqpre : q ∉ pre := by
      have := nxt_nodup ps n
      rw [hp] at this
      have := (List.nodup_append.1 this).2.2
      intro hc
      exact this q hc q (by simp) rfl
    have hp' : nxt ps n = (pre ++ [q]) ++ rest := by simp [hp]
    rw [List.foldlM_cons]
    -- A step that changes nothing.
    have plain : (inAreaPortal contents q.2 = true → q.2 ∈ cur.visited) → (Free contents q.2 → q ∈ cur.exits) → ExitLoop contents ps n s (pre ++ [q]) cur := by
      intro h1 h2
      refine ⟨hi.sub, hi.self, hi.area, hi.reach, hi.closed, ?_, ?_⟩
      · intro x hx
        rcases List.mem_append.1 hx with hx | hx
        · exact hi.done x hx
        · rw [List.mem_singleton] at hx
          subst hx
          exact ⟨h1, h2⟩
      · obtain ⟨new, a1, a2, a3⟩ := hi.exits
        refine ⟨new, a1, a2, fun e he => ?_⟩
        obtain ⟨m, b1, b2, b3, b4, b5⟩ := a3 e he
        exact ⟨m, b1, b2, b3, b4, fun h => List.mem_append_left _ (b5 h)⟩
    by_cases hv : q.2 ∈ cur.visited
    · have : exitStep contents (findExits contents ps fuel) cur q = some cur := by
        unfold exitStep; rw [if_pos hv]
      rw [this]
      refine ihr (pre ++ [q]) cur hp' (plain (fun _ => hv) fun hf => ?_)
      have := hi.area _ hv
      unfold inAreaPortal at this
      rw [hf.1] at this
      cases this
    by_cases hf : Free contents q.2
    · have : exitStep contents (findExits contents ps fuel) cur q = some { cur with exits := cur.exits ++ [q] } := by
        unfold exitStep; rw [if_neg hv, if_pos (free_iff.2 hf)]
      rw [this]
      refine ihr (pre ++ [q]) _ hp' ⟨hi.sub, hi.self, hi.area, hi.reach, ?_, ?_, ?_⟩
      · intro m h1 h2 h3 x hx
        obtain ⟨c1, c2⟩ := hi.closed m h1 h2 h3 x hx
        exact ⟨c1, fun h => List.mem_append_left _ (c2 h)⟩
      · intro x hx
        rcases List.mem_append.1 hx with hx | hx
        · exact ⟨(hi.done x hx).1, fun h => List.mem_append_left _ ((hi.done x hx).2 h)⟩
        · rw [List.mem_singleton] at hx
          subst hx
          refine ⟨fun h => ?_, fun _ => by simp⟩
          unfold inAreaPortal at h
          rw [hf.1] at h
          cases h
      · obtain ⟨new, a1, a2, a3⟩ := hi.exits
        refine ⟨new ++ [q], by simp [a1], ?_, ?_⟩
        · rw [List.nodup_append]
          refine ⟨a2, by simp, ?_⟩
          intro x hx y hy
          rw [List.mem_singleton] at hy
          rintro rfl
          subst hy
          obtain ⟨m, _, _, b3, _, b5⟩ := a3 x hx
          exact hqpre (b5 (exit_owner hne b3 hq))
        · intro e he
          rcases List.mem_append.1 he with he | he
          · obtain ⟨m, b1, b2, b3, b4, b5⟩ := a3 e he
            exact ⟨m, b1, b2, b3, b4, fun h => List.mem_append_left _ (b5 h)⟩
          · rw [List.mem_singleton] at he
            subst he
            exact ⟨n, hi.self, hns, hq, hf, fun _ => by simp⟩
    by_cases ha : inAreaPortal contents q.2 = true
    · have : exitStep contents (findExits contents ps fuel) cur q = findExits contents ps fuel q.2 cur := by
        unfold exitStep; rw [if_neg hv, if_neg (by rw [free_iff]; exact hf), if_neg (by simp [ha])]
      rw [this]
      obtain ⟨t, ht, hpost⟩ := ih q.2 cur (hU n hn q hq) hv ha hi.area (by
        have := exitLeft_lt (U := U) (s := s) (t := cur) hi.sub hn hns hi.self
        omega)
      rw [ht]
      refine ihr (pre ++ [q]) t hp' ⟨fun m h => hpost.sub m (hi.sub m h), hpost.sub n hi.self, hpost.area, ?_, ?_, ?_, ?_⟩
      · intro m hm
        rcases hpost.reach m hm with h | h
        · exact hi.reach m h
        · right
          obtain ⟨k, w⟩ := q
          obtain ⟨p, hk, hb⟩ := mem_nxt.1 hq
          refine reaches_trans ?_ h
          have hnn := hi.area n hi.self
          refine ⟨_, _, Chain.cons n k w w p [] [w] hk ?_ hb (.nil w)⟩
          unfold inAreaPortal at hnn ha
          rcases hb with ⟨c1, c2⟩ | ⟨c1, c2⟩
          · unfold Within; rw [c1, c2]; exact ⟨hnn, ha⟩
          · unfold Within; rw [c1, c2]; exact ⟨ha, hnn⟩
      · intro m hm h2 h3 x hx
        by_cases hc : m ∈ cur.visited
        · obtain ⟨c1, c2⟩ := hi.closed m hc h2 h3 x hx
          obtain ⟨new, a1, _, _⟩ := hpost.exits
          exact ⟨fun h => hpost.sub _ (c1 h), fun h => by rw [a1]; exact List.mem_append_left _ (c2 h)⟩
        · exact hpost.closed m hm hc x hx
      · intro x hx
        obtain ⟨new, a1, _, _⟩ := hpost.exits
        rcases List.mem_append.1 hx with hx | hx
        · obtain ⟨c1, c2⟩ := hi.done x hx
          exact ⟨fun h => hpost.sub _ (c1 h), fun h => by rw [a1]; exact List.mem_append_left _ (c2 h)⟩
        · rw [List.mem_singleton] at hx
          subst hx
          exact ⟨fun _ => hpost.self, fun h => absurd h hf⟩
      · obtain ⟨new, a1, a2, a3⟩ := hi.exits
        obtain ⟨new', a1', a2', a3'⟩ := hpost.exits
        refine ⟨new ++ new', by rw [a1', a1, List.append_assoc], ?_, ?_⟩
        · rw [List.nodup_append]
          refine ⟨a2, a2', ?_⟩
          rintro x hx y hy rfl
          obtain ⟨m, b1, _, b3, _, _⟩ := a3 x hx
          obtain ⟨m', _, c2, c3, _⟩ := a3' x hy
          rw [exit_owner hne b3 c3] at b1
          exact c2 b1
        · intro e he
          rcases List.mem_append.1 he with he | he
          · obtain ⟨m, b1, b2, b3, b4, b5⟩ := a3 e he
            exact ⟨m, hpost.sub m b1, b2, b3, b4, fun h => List.mem_append_left _ (b5 h)⟩
          · obtain ⟨m, b1, b2, b3, b4⟩ := a3' e he
            exact ⟨m, b1, fun h => b2 (hi.sub m h), b3, b4, fun h => absurd (h ▸ hi.self) b2⟩
    · have : exitStep contents (findExits contents ps fuel) cur q = some cur := by
        unfold exitStep; rw [if_neg hv, if_neg (by rw [free_iff]; exact hf), if_pos (by simpa using ha)]
      rw [this]
      exact ihr (pre ++ [q]) cur hp' (plain (fun h => absurd h ha) fun h => absurd h hf)

theorem exit_search (hne : ∀ p ∈ ps, p.n0 ≠ p.n1) {U : Finset Nat} (hU : ∀ m ∈ U, ∀ q ∈ nxt ps m, q.2 ∈ U) : ∀ (fuel n : Nat) (s : ExitState), n ∈ U →
    n ∉ s.visited → inAreaPortal contents n = true → (∀ x ∈ s.visited, inAreaPortal contents x = true) → exitLeft U s ≤ fuel →
      ∃ t, findExits contents ps fuel n s = some t ∧ ExitPost contents ps n s t := by
  intro fuel
  induction fuel with
  | zero =>
    intro n s hn hns _ _ hl
    exfalso
    have : 0 < exitLeft U s := Finset.card_pos.2 ⟨n, by simp [hn, hns]⟩
    omega
  | succ fuel ih =>
    intro n s hn hns ha hs hl
    have h0 : ExitLoop contents ps n s [] { s with visited := n :: s.visited } := by
      refine ⟨fun m h => List.mem_cons_of_mem _ h, List.mem_cons_self, ?_, ?_, ?_, by simp, ⟨[], by simp⟩⟩
      · intro m hm
        rcases List.mem_cons.1 hm with rfl | hm
        · exact ha
        · exact hs m hm
      · intro m hm
        rcases List.mem_cons.1 hm with rfl | hm
        · exact .inr ⟨_, _, .nil m⟩
        · exact .inl hm
      · intro m hm h2 h3
        rcases List.mem_cons.1 hm with rfl | hm
        · exact absurd rfl h3
        · exact absurd hm h2
    obtain ⟨t, h1, h2⟩ := exit_loop hne hU hn hns hl ih (nxt ps n) [] { s with visited := n :: s.visited } (by simp) h0
    refine ⟨t, h1, h2.sub, h2.self, h2.area, h2.reach, ?_, ?_⟩
    · intro m hm h3 q hq
      by_cases hmn : m = n
      · subst hmn
        exact h2.done q hq
      · exact h2.closed m hm h3 hmn q hq
    · obtain ⟨new, a1, a2, a3⟩ := h2.exits
      exact ⟨new, a1, a2, fun e he => let ⟨m, b1, b2, b3, b4, _⟩ := a3 e he; ⟨m, b1, b2, b3, b4⟩⟩

/-- All leafs of a list of portals, and one more. -/
def allLeafs (ps : List Portal) (n : Nat) : Finset Nat := insert n (ps.flatMap fun p => [p.n0, p.n1]).toFinset

theorem allLeafs_closed (ps : List Portal) (n : Nat) : ∀ m ∈ allLeafs ps n, ∀ q ∈ nxt ps m, q.2 ∈ allLeafs ps n := by
  rintro m _ ⟨k, w⟩ hq
  obtain ⟨p, hk, hb⟩ := mem_nxt.1 hq
  unfold allLeafs
  rw [Finset.mem_insert, List.mem_toFinset, List.mem_flatMap]
  right
  refine ⟨p, List.mem_of_getElem? hk, ?_⟩
  rcases hb with ⟨_, h⟩ | ⟨_, h⟩ <;> simp [h]

end

end Verif.Flood
