import Verif.Flood.ExitLemmas

/-!
C233: the leak line of an area portal.
-/

namespace Verif.Flood

open Contents Spec

/-- The search finds each portal that leads out of an area portal into a leaf that is not solid, once, and nothing else. -/
theorem exits_found (contents : Nat → Contents) (ps : List Portal) (hne : ∀ p ∈ ps, p.n0 ≠ p.n1) (n : Nat)
    (hn : tst (contents n) AREAPORTAL = true) :
    ∃ exits N, (∀ fuel ≥ N, areaPortalExits contents ps n fuel = some exits) ∧ exits.Nodup ∧ ∀ q, q ∈ exits ↔ Exit contents ps n q := by
  have key : ∀ fuel ≥ exitLeft (allLeafs ps n) ⟨[], []⟩, ∃ t, findExits contents ps fuel n ⟨[], []⟩ = some t ∧ ExitPost contents ps n ⟨[], []⟩ t :=
    fun fuel hf => exit_search hne (allLeafs_closed ps n) fuel n ⟨[], []⟩ (by simp [allLeafs]) (by simp) hn (by simp) hf
  have sem : ∀ t, ExitPost contents ps n ⟨[], []⟩ t → t.exits.Nodup ∧ ∀ q, q ∈ t.exits ↔ Exit contents ps n q := by
    intro t hp
    obtain ⟨new, a1, a2, a3⟩ := hp.exits
    simp only [List.nil_append] at a1
    rw [a1]
    refine ⟨a2, fun q => ⟨fun hq => ?_, ?_⟩⟩
    · obtain ⟨m, b1, b2, b3, b4⟩ := a3 q hq
      obtain ⟨p, hk, hb⟩ := mem_nxt.1 (show (q.1, q.2) ∈ nxt ps m from b3)
      rcases hp.reach m b1 with h | h
      · simp at h
      · exact ⟨p, m, hk, h, hb, b4⟩
    · rintro ⟨p, m, hk, hr, hb, hf⟩
      have hall : ∀ {u v ks vs}, Chain (Within contents) ps u ks vs v → u ∈ t.visited → v ∈ t.visited := by
        intro u v ks vs hc
        induction hc with
        | nil => exact id
        | cons u k w v p ks vs h1 h2 h3 _ ih =>
          intro hu
          refine ih (((hp.closed u hu (by simp) (k, w) (mem_nxt.2 ⟨p, h1, h3⟩)).1) ?_)
          unfold inAreaPortal
          rcases h3 with ⟨_, c⟩ | ⟨_, c⟩
          · rw [← c]; exact h2.2
          · rw [← c]; exact h2.1
      obtain ⟨ks, vs, hc⟩ := hr
      have hm := hall hc hp.self
      rw [← a1]
      exact (hp.closed m hm (by simp) q (mem_nxt.2 ⟨p, hk, hb⟩)).2 hf
  obtain ⟨t, ht, hp⟩ := key _ (le_refl _)
  refine ⟨t.exits, exitLeft (allLeafs ps n) ⟨[], []⟩, fun fuel hf => ?_, sem t hp⟩
  -- more fuel changes nothing
  have mono : ∀ (f g : Nat), f ≤ g → ∀ m s t, findExits contents ps f m s = some t → findExits contents ps g m s = some t := by
    intro f
    induction f with
    | zero => intro g _ m s t h; simp [findExits] at h
    | succ f ih =>
      intro g hg m s t h
      obtain ⟨g, rfl⟩ : ∃ g', g = g' + 1 := ⟨g - 1, by omega⟩
      simp only [findExits] at h ⊢
      generalize (neighbours (fun _ => true) ps m) = l at h ⊢
      generalize ({ s with visited := m :: s.visited } : ExitState) = cur at h ⊢
      induction l generalizing cur with
      | nil => exact h
      | cons q l ihl =>
        rw [List.foldlM_cons] at h ⊢
        obtain ⟨x, hx, h⟩ := Option.bind_eq_some_iff.1 h
        have : exitStep contents (findExits contents ps g) cur q = some x := by
          unfold exitStep at hx ⊢
          split_ifs at hx ⊢ with c1 c2 c3
          · exact hx
          · exact hx
          · exact hx
          · exact ih g (by omega) _ _ _ hx
        rw [this]
        exact ihl x h
  unfold areaPortalExits
  rw [mono _ _ hf _ _ _ ht]
  rfl

theorem passable_iff (contents : Nat → Contents) (p : Portal) : leakPassable contents p = true ↔ Passable contents p := by
  unfold leakPassable entityFlood inAreaPortal Passable Free
  cases Q2.isSolid (contents p.n0) <;> cases Q2.isSolid (contents p.n1) <;> cases tst (contents p.n0) AREAPORTAL <;>
    cases tst (contents p.n1) AREAPORTAL <;> simp

theorem chain_length {ok : Portal → Prop} {ps : List Portal} {u v : Nat} {ks vs : List Nat} (h : Chain ok ps u ks vs v) : vs.length = ks.length + 1 := by
  induction h with
  | nil => rfl
  | cons u k w v p ks vs _ _ _ _ ih => simp [ih]

/-- A line, if there is one, from the first exit to another is a shortest way between them, and no other exit is further away from
the first. -/
theorem longest_spec (contents : Nat → Contents) (ps : List Portal) (a : Nat) : ∀ (rest : List (Nat × Nat)) (best : List Nat),
    ∃ path N, (∀ fuel ≥ N, longestPath contents ps a fuel rest best = some (.ok path)) ∧
      (path = best ∨ ∃ e ∈ rest, Shortest contents ps a e.2 path) ∧ best.length ≤ path.length ∧
      ∀ e ∈ rest, ∀ p, Shortest contents ps a e.2 p → p.length ≤ path.length := by
  intro rest
  induction rest with
  | nil => exact fun best => ⟨best, 0, fun _ _ => rfl, .inl rfl, le_refl _, by simp⟩
  | cons e t ih =>
    intro best
    obtain ⟨p0, ⟨N0, h0⟩, hp⟩ := shortest_path (passable_iff contents) (ps := ps) a e.2
    obtain ⟨path, N, h1, h2, h3, h4⟩ := ih (if p0.length > best.length then p0 else best)
    have hlen : best.length ≤ path.length ∧ p0.length ≤ path.length := by
      split_ifs at h3 with h <;> constructor <;> omega
    refine ⟨path, max N0 N, ?_, ?_, hlen.1, ?_⟩
    · intro fuel hf
      simp only [longestPath, h0 fuel (le_trans (le_max_left _ _) hf)]
      exact h1 fuel (le_trans (le_max_right _ _) hf)
    · rcases h2 with h2 | ⟨x, hx, h2⟩
      · split_ifs at h2 with h
        · right
          refine ⟨e, .head _, ?_⟩
          rcases hp with ⟨hp, _⟩ | hp
          · rw [hp] at h; simp at h
          · rw [h2]; exact hp
        · exact .inl h2
      · exact .inr ⟨x, .tail _ hx, h2⟩
    · intro x hx p hs
      rcases List.mem_cons.1 hx with rfl | hx
      · rcases hp with ⟨_, hp⟩ | ⟨ks, hc, hmin⟩
        · obtain ⟨ks, hc, _⟩ := hs
          exact absurd ⟨_, _, hc⟩ hp
        · obtain ⟨ks', hc', hmin'⟩ := hs
          have h5 := hmin _ _ hc'
          have h6 := hmin' _ _ hc
          have h7 := chain_length hc
          have h8 := chain_length hc'
          have := hlen.2
          omega
      · exact h4 x hx p hs

/-- The line of an area portal: none with fewer than two exits; else a shortest way, past solid and area portals, from the first to
the exit that is furthest away from it, or no leaf at all if one can get to no other exit. -/
theorem portal_leak_line (contents : Nat → Contents) (ps : List Portal) (hne : ∀ p ∈ ps, p.n0 ≠ p.n1) (n : Nat)
    (hn : tst (contents n) AREAPORTAL = true) :
    ∃ exits : List (Nat × Nat), exits.Nodup ∧ (∀ q, q ∈ exits ↔ Exit contents ps n q) ∧ ∃ r N, (∀ fuel ≥ N, bothSidesLeak contents ps n fuel = some (.ok r)) ∧
      (exits.length < 2 → r = none) ∧
      ∀ e f rest, exits = e :: f :: rest → ∃ path, r = some path ∧
        (path = [] ∧ (∀ x ∈ f :: rest, ¬ Reaches (Passable contents) ps e.2 x.2) ∨
          ∃ x ∈ f :: rest, Shortest contents ps e.2 x.2 path ∧ ∀ y ∈ f :: rest, ∀ p, Shortest contents ps e.2 y.2 p → p.length ≤ path.length) := by
  obtain ⟨exits, N, h1, h2, h3⟩ := exits_found contents ps hne n hn
  refine ⟨exits, h2, h3, ?_⟩
  match exits, h1 with
  | [], h1 => exact ⟨none, N, fun fuel hf => by simp only [bothSidesLeak, h1 fuel hf], fun _ => rfl, by simp⟩
  | [e], h1 => exact ⟨none, N, fun fuel hf => by simp only [bothSidesLeak, h1 fuel hf], fun _ => rfl, by simp⟩
  | e :: f :: rest, h1 =>
    obtain ⟨path, M, a1, a2, _, a4⟩ := longest_spec contents ps e.2 (f :: rest) []
    refine ⟨some path, max N M, fun fuel hf => ?_, by simp, ?_⟩
    · simp only [bothSidesLeak, h1 fuel (le_trans (le_max_left _ _) hf), a1 fuel (le_trans (le_max_right _ _) hf)]
      rfl
    · intro e' f' rest' he
      simp only [List.cons.injEq] at he
      obtain ⟨rfl, rfl, rfl⟩ := he
      refine ⟨path, rfl, ?_⟩
      rcases a2 with rfl | ⟨x, hx, hs⟩
      · left
        refine ⟨rfl, fun x hx hr => ?_⟩
        obtain ⟨p, _, hp⟩ := shortest_path (passable_iff contents) (ps := ps) e.2 x.2
        rcases hp with ⟨_, hp⟩ | ⟨ks, hc, hmin⟩
        · exact hp hr
        · have := a4 x hx p ⟨ks, hc, hmin⟩
          rw [chain_length hc] at this
          simp at this
      · exact .inr ⟨x, hx, hs, a4⟩

/-! A room, a window of two leafs and a way around. -/

def exitPs : List Portal := [⟨1, 2, some 0⟩, ⟨2, 3, some 1⟩, ⟨3, 4, some 2⟩, ⟨1, 5, some 3⟩, ⟨5, 4, some 4⟩]
def exitContents : Nat → Contents := fun v => if v = 2 ∨ v = 3 then AREAPORTAL else 0

example : bothSidesLeak exitContents exitPs 2 20 = some (.ok (some [4, 5, 1])) := by decide +kernel
example : areaPortalExits exitContents exitPs 2 20 = some [(2, 4), (0, 1)] := by decide +kernel

end Verif.Flood
