import Verif.Flood.Path
import Verif.Flood.Bfs
import Mathlib.Tactic.ByContra

/-!
The path between two leafs is a shortest one (C84).
-/

namespace Verif.Flood

open Spec

theorem enqueue_spec (node : Nat) : ∀ (L : List Nat) (s : PathState), ∃ l, (enqueue node L s).queue = s.queue ++ l ∧
    (∀ x, x ∈ (enqueue node L s).seen ↔ x ∈ s.seen ∨ x ∈ l) ∧ (∀ x ∈ l, x ∉ s.seen ∧ x ∈ L) ∧
    (∀ x ∈ L, x ∈ (enqueue node L s).seen) ∧ l.Nodup ∧
    ∀ x, (enqueue node L s).parent x = if x ∈ l then some node else s.parent x := by
  intro L
  induction L with
  | nil => intro s; exact ⟨[], by simp [enqueue]⟩
  | cons w L ih =>
    intro s
    simp only [enqueue]
    by_cases hw : w ∈ s.seen
    · rw [if_pos hw]
      obtain ⟨l, h1, h2, h3, h4, h5, h6⟩ := ih s
      refine ⟨l, h1, h2, fun x hx => ⟨(h3 x hx).1, by simp [(h3 x hx).2]⟩, ?_, h5, h6⟩
      intro x hx
      rcases List.mem_cons.1 hx with rfl | hx
      · exact (h2 x).2 (Or.inl hw)
      · exact h4 x hx
    · rw [if_neg hw]
      obtain ⟨l, h1, h2, h3, h4, h5, h6⟩ := ih ⟨s.queue ++ [w], w :: s.seen, setAt s.parent w (some node)⟩
      refine ⟨w :: l, ?_, ?_, ?_, ?_, ?_, ?_⟩
      · rw [h1]; simp
      · intro x
        rw [h2]
        simp only [List.mem_cons]
        constructor
        · rintro ((h | h) | h)
          · exact Or.inr (Or.inl h)
          · exact Or.inl h
          · exact Or.inr (Or.inr h)
        · rintro (h | h | h)
          · exact Or.inl (Or.inr h)
          · exact Or.inl (Or.inl h)
          · exact Or.inr h
      · intro x hx
        rcases List.mem_cons.1 hx with rfl | hx
        · exact ⟨hw, by simp⟩
        · have := h3 x hx
          simp only [List.mem_cons, not_or] at this
          exact ⟨this.1.2, by simp [this.2]⟩
      · intro x hx
        rcases List.mem_cons.1 hx with rfl | hx
        · exact (h2 x).2 (Or.inl (by simp))
        · exact h4 x hx
      · refine List.nodup_cons.2 ⟨fun h => ?_, h5⟩
        have := (h3 w h).1
        simp at this
      · intro x
        rw [h6]
        by_cases hx : x = w
        · subst hx
          by_cases hl : x ∈ l
          · simp [hl]
          · simp [hl, setAt_self]
        · simp only [setAt_ne _ _ hx, List.mem_cons, hx, false_or]

/-- The state of the search from `a`; `d` is the length of the way to each leaf that was seen. -/
structure PathInv (nx : Nat → List Nat) (a b : Nat) (s : PathState) (d : Nat → Nat) : Prop where
  start : a ∈ s.seen ∧ d a = 0
  tree : ∀ n ∈ s.seen, n = a ∨ ∃ p ∈ s.seen, s.parent n = some p ∧ n ∈ nx p ∧ d n = d p + 1
  sub : ∀ n ∈ s.queue, n ∈ s.seen
  closed : ∀ n ∈ s.seen, n ∉ s.queue → n ≠ b ∧ ∀ w ∈ nx n, w ∈ s.seen ∧ d w ≤ d n + 1
  sorted : s.queue.Pairwise fun x y => d x ≤ d y
  level : ∃ D, (∀ x ∈ s.queue, D ≤ d x ∧ d x ≤ D + 1) ∧ ∀ n ∈ s.seen, n ∉ s.queue → d n ≤ D

theorem pathInv_step {nx : Nat → List Nat} {a b node : Nat} {q : List Nat} {s : PathState} {d : Nat → Nat}
    (hi : PathInv nx a b s d) (hq : s.queue = node :: q) (hb : node ≠ b) :
    ∃ l d', PathInv nx a b (enqueue node (nx node) { s with queue := q }) d' ∧
      (enqueue node (nx node) { s with queue := q }).queue = q ++ l ∧ l.Nodup ∧ (∀ x ∈ l, x ∉ s.seen ∧ x ∈ nx node) ∧
      ∀ x, x ∈ (enqueue node (nx node) { s with queue := q }).seen ↔ x ∈ s.seen ∨ x ∈ l := by
  obtain ⟨l, h1, h2, h3, h4, h5, h6⟩ := enqueue_spec node (nx node) { s with queue := q }
  simp only at h1 h2 h3 h6
  obtain ⟨D, hD1, hD2⟩ := hi.level
  have hnode : node ∈ s.seen := hi.sub node (by rw [hq]; simp)
  have hnl : node ∉ l := fun h => (h3 node h).1 hnode
  have hsort := hi.sorted
  rw [hq] at hsort
  obtain ⟨hs1, hs2⟩ := List.pairwise_cons.1 hsort
  have hDn := hD1 node (by rw [hq]; simp)
  have hqd : ∀ x ∈ q, d node ≤ d x ∧ d x ≤ d node + 1 := by
    intro x hx
    have := hD1 x (by rw [hq]; simp [hx])
    exact ⟨hs1 x hx, by omega⟩
  have hlq : ∀ x, x ∈ s.seen → x ∉ l := fun x hx h => (h3 x h).1 hx
  refine ⟨l, fun x => if x ∈ l then d node + 1 else d x, ⟨?_, ?_, ?_, ?_, ?_, ?_⟩, h1, h5, h3, h2⟩
  · refine ⟨(h2 a).2 (Or.inl hi.start.1), ?_⟩
    simp only [hlq a hi.start.1, if_false]
    exact hi.start.2
  · intro n hn
    by_cases hl : n ∈ l
    · right
      refine ⟨node, (h2 node).2 (Or.inl hnode), by rw [h6, if_pos hl], (h3 n hl).2, ?_⟩
      simp only [hl, hnl, if_true, if_false]
    · have hns := ((h2 n).1 hn).resolve_right hl
      rcases hi.tree n hns with h | ⟨p, hp1, hp2, hp3, hp4⟩
      · exact Or.inl h
      · right
        refine ⟨p, (h2 p).2 (Or.inl hp1), by rw [h6, if_neg hl]; exact hp2, hp3, ?_⟩
        simp only [hl, hlq p hp1, if_false]
        exact hp4
  · intro n hn
    rw [h1] at hn
    rcases List.mem_append.1 hn with hn | hn
    · exact (h2 n).2 (Or.inl (hi.sub n (by rw [hq]; simp [hn])))
    · exact (h2 n).2 (Or.inr hn)
  · intro n hn hnq
    rw [h1] at hnq
    simp only [List.mem_append, not_or] at hnq
    have hns := ((h2 n).1 hn).resolve_right hnq.2
    by_cases hnn : n = node
    · subst hnn
      refine ⟨hb, ?_⟩
      intro w hw
      refine ⟨h4 w hw, ?_⟩
      simp only [hnl, if_false]
      by_cases hwl : w ∈ l
      · simp [hwl]
      · simp only [hwl, if_false]
        have hws := ((h2 w).1 (h4 w hw)).resolve_right hwl
        by_cases hwq : w ∈ s.queue
        · rw [hq] at hwq
          rcases List.mem_cons.1 hwq with rfl | hwq
          · omega
          · exact (hqd w hwq).2
        · have := hD2 w hws hwq
          omega
    · have hnq' : n ∉ s.queue := by rw [hq]; simp [hnn, hnq.1]
      have := hi.closed n hns hnq'
      refine ⟨this.1, ?_⟩
      intro w hw
      have hw' := this.2 w hw
      refine ⟨(h2 w).2 (Or.inl hw'.1), ?_⟩
      simp only [hnq.2, hlq w hw'.1, if_false]
      exact hw'.2
  · rw [h1, List.pairwise_append]
    refine ⟨?_, ?_, ?_⟩
    · refine List.Pairwise.imp_of_mem ?_ hs2
      intro x y hx hy hxy
      simp only [hlq x (hi.sub x (by rw [hq]; simp [hx])), hlq y (hi.sub y (by rw [hq]; simp [hy])), if_false]
      exact hxy
    · refine List.Pairwise.imp_of_mem ?_ (List.pairwise_of_forall (R := fun _ _ => True) fun _ _ => trivial)
      intro x y hx hy _
      simp [hx, hy]
    · intro x hx y hy
      simp only [hlq x (hi.sub x (by rw [hq]; simp [hx])), hy, if_false, if_true]
      exact (hqd x hx).2
  · refine ⟨d node, ?_, ?_⟩
    · intro x hx
      rw [h1] at hx
      by_cases hl : x ∈ l
      · simp [hl]
      · rcases List.mem_append.1 hx with hx | hx
        · simp only [hl, if_false]
          exact hqd x hx
        · exact absurd hx hl
    · intro n hn hnq
      rw [h1] at hnq
      simp only [List.mem_append, not_or] at hnq
      simp only [hnq.2, if_false]
      have hns := ((h2 n).1 hn).resolve_right hnq.2
      by_cases hnn : n = node
      · rw [hnn]; exact Nat.le_refl _
      · have := hD2 n hns (by rw [hq]; simp [hnn, hnq.1])
        omega

/-- Leafs not seen yet. -/
def unseenIn (V seen : List Nat) : Nat := (V.filter fun v => v ∉ seen).length

theorem unseenIn_drop {V : List Nat} {seen seen' l : List Nat} (hn : l.Nodup) (hl : ∀ x ∈ l, x ∉ seen ∧ x ∈ V)
    (hs : ∀ x, x ∈ seen' ↔ x ∈ seen ∨ x ∈ l) : unseenIn V seen' + l.length ≤ unseenIn V seen := by
  induction l generalizing seen' with
  | nil =>
    have : unseenIn V seen' = unseenIn V seen := by
      unfold unseenIn
      congr 1
      apply List.filter_congr
      intro x _
      simp [hs x]
    simp [this]
  | cons a l ih =>
    obtain ⟨ha, hn'⟩ := List.nodup_cons.1 hn
    have h1 := ih (seen' := seen ++ l) hn' (fun x hx => hl x (by simp [hx])) (by simp)
    have hav := hl a (by simp)
    have key : ∀ V : List Nat, a ∈ V → unseenIn V seen' + 1 ≤ unseenIn V (seen ++ l) := by
      intro V hV
      have mono : ∀ V : List Nat, unseenIn V seen' ≤ unseenIn V (seen ++ l) := by
        intro V
        induction V with
        | nil => simp [unseenIn]
        | cons y V ihV =>
          simp only [unseenIn, List.filter_cons] at ihV ⊢
          by_cases hy : y ∈ seen'
          · by_cases hy' : y ∈ seen ++ l
            · simp only [hy, hy', not_true, decide_false, Bool.false_eq_true, if_false]; exact ihV
            · simp only [hy, hy', not_true, not_false_iff, decide_false, decide_true, Bool.false_eq_true, if_false, if_true,
                List.length_cons]
              omega
          · have hy' : y ∉ seen ++ l := by
              intro h
              apply hy
              rw [hs]
              rcases List.mem_append.1 h with h | h
              · exact Or.inl h
              · exact Or.inr (by simp [h])
            simp only [hy, hy', not_false_iff, decide_true, if_true, List.length_cons]
            omega
      induction V with
      | nil => simp at hV
      | cons y V ihV =>
        by_cases hya : y = a
        · subst hya
          have := mono V
          have h3 : y ∈ seen' := (hs y).2 (Or.inr (by simp))
          have h4 : y ∉ seen ++ l := by simp [hav.1, ha]
          simp only [unseenIn, List.filter_cons] at this ⊢
          simp only [h3, h4, not_true, not_false_iff, decide_false, decide_true, Bool.false_eq_true, if_false, if_true,
            List.length_cons]
          omega
        · have h5 := ihV (by rcases List.mem_cons.1 hV with h | h; exact absurd h.symm hya; exact h)
          have h6 : y ∈ seen' ↔ y ∈ seen ++ l := by rw [hs]; simp [hya]
          simp only [unseenIn, List.filter_cons] at h5 ⊢
          by_cases h7 : y ∈ seen'
          · have h8 := h6.1 h7
            simp only [h7, h8, not_true, decide_false, Bool.false_eq_true, if_false]; exact h5
          · have h8 : y ∉ seen ++ l := fun h => h7 (h6.2 h)
            simp only [h7, h8, not_false_iff, decide_true, if_true, List.length_cons]
            omega
    have := key V hav.2
    simp only [List.length_cons]
    omega

/-- What the loop found: a tree of parents with the lengths of the ways, or that `b` was not among the leafs seen. -/
def Found (nx : Nat → List Nat) (a b : Nat) : Option (Nat → Option Nat) → Prop
  | none => ∀ k, ¬ Walk nx a k b
  | some parent => ∃ (seen : List Nat) (d : Nat → Nat), b ∈ seen ∧ d a = 0 ∧
      (∀ n ∈ seen, n = a ∨ ∃ p ∈ seen, parent n = some p ∧ n ∈ nx p ∧ d n = d p + 1) ∧ ∀ k, Walk nx a k b → d b ≤ k

theorem walk_frontier {nx : Nat → List Nat} {a b : Nat} {s : PathState} {d : Nat → Nat} (hi : PathInv nx a b s d) {k v : Nat}
    (h : Walk nx a k v) : (v ∈ s.seen ∧ d v ≤ k) ∨ ∃ q ∈ s.queue, d q ≤ k := by
  induction h with
  | zero => exact Or.inl ⟨hi.start.1, by rw [hi.start.2]; exact Nat.le_refl 0⟩
  | @snoc k u w _ hw ih =>
    rcases ih with ⟨h1, h2⟩ | ⟨q, h1, h2⟩
    · by_cases hq : u ∈ s.queue
      · exact Or.inr ⟨u, hq, by omega⟩
      · have := (hi.closed u h1 hq).2 w hw
        exact Or.inl ⟨this.1, by omega⟩
    · exact Or.inr ⟨q, h1, by omega⟩

theorem pathLoop_ok {pass : Portal → Bool} {ps : List Portal} {a b : Nat} {V : List Nat}
    (hV : ∀ v ∈ V, ∀ w ∈ nb pass ps v, w ∈ V) : ∀ (m : Nat) (s : PathState) (d : Nat → Nat), PathInv (nb pass ps) a b s d →
    (∀ x ∈ s.seen, x ∈ V) → s.queue.length + unseenIn V s.seen ≤ m →
    ∃ r, (∀ fuel ≥ m, pathLoop pass ps b fuel s = some r) ∧ Found (nb pass ps) a b r := by
  intro m
  induction m with
  | zero =>
    intro s d hi hs hm
    have hq : s.queue = [] := List.length_eq_zero_iff.1 (by omega)
    refine ⟨none, fun fuel _ => by unfold pathLoop; simp only [hq], ?_⟩
    intro k hk
    rcases walk_frontier hi hk with ⟨h, -⟩ | ⟨q, h, -⟩
    · exact (hi.closed b h (by rw [hq]; simp)).1 rfl
    · rw [hq] at h; simp at h
  | succ m ih =>
    intro s d hi hs hm
    cases hq : s.queue with
    | nil =>
      refine ⟨none, fun fuel _ => by unfold pathLoop; simp only [hq], ?_⟩
      intro k hk
      rcases walk_frontier hi hk with ⟨h, -⟩ | ⟨q, h, -⟩
      · exact (hi.closed b h (by rw [hq]; simp)).1 rfl
      · rw [hq] at h; simp at h
    | cons node q =>
      by_cases hb : node = b
      · refine ⟨some s.parent, ?_, ?_⟩
        · intro fuel hf
          obtain ⟨fuel, rfl⟩ : ∃ f, fuel = f + 1 := ⟨fuel - 1, by omega⟩
          unfold pathLoop
          simp only [hq, hb, if_true]
        · have hnode : node ∈ s.seen := hi.sub node (by rw [hq]; simp)
          subst hb
          refine ⟨s.seen, d, hnode, hi.start.2, hi.tree, ?_⟩
          intro k hk
          rcases walk_frontier hi hk with ⟨-, h⟩ | ⟨x, h, h'⟩
          · exact h
          · rw [hq] at h
            rcases List.mem_cons.1 h with rfl | h
            · exact h'
            · have hsort := hi.sorted
              rw [hq] at hsort
              have := (List.pairwise_cons.1 hsort).1 x h
              omega
      · obtain ⟨l, d', h1, h2, h3, h4, h5⟩ := pathInv_step hi hq hb
        have hnode : node ∈ V := hs node (hi.sub node (by rw [hq]; simp))
        have hl : ∀ x ∈ l, x ∉ s.seen ∧ x ∈ V := fun x hx => ⟨(h4 x hx).1, hV node hnode x (h4 x hx).2⟩
        have hdrop := unseenIn_drop (V := V) h3 hl h5
        obtain ⟨r, h6, h7⟩ := ih _ d' h1 (fun x hx => by
          rcases (h5 x).1 hx with h | h
          · exact hs x h
          · exact (hl x h).2) (by
          rw [h2, List.length_append]
          rw [hq, List.length_cons] at hm
          omega)
        refine ⟨r, ?_, h7⟩
        intro fuel hf
        obtain ⟨fuel, rfl⟩ : ∃ f, fuel = f + 1 := ⟨fuel - 1, by omega⟩
        unfold pathLoop
        simp only [hq, hb, if_false]
        exact h6 fuel (by omega)

theorem extractPath_ok {pass : Portal → Bool} {ok : Portal → Prop} (hpass : ∀ p, pass p = true ↔ ok p) {ps : List Portal} {a b : Nat}
    {parent : Nat → Option Nat} {seen : List Nat} {d : Nat → Nat} (ha : d a = 0)
    (ht : ∀ n ∈ seen, n = a ∨ ∃ p ∈ seen, parent n = some p ∧ n ∈ nb pass ps p ∧ d n = d p + 1) :
    ∀ (m n : Nat) (ks acc : List Nat), n ∈ seen → d n = m → Chain ok ps n ks (n :: acc) b →
    ∃ ks' path, (∀ fuel ≥ m, extractPath a parent fuel n acc = some (.ok path)) ∧ Chain ok ps a ks' path b ∧
      ks'.length = m + ks.length := by
  intro m
  induction m with
  | zero =>
    intro n ks acc hn hd hc
    have hna : n = a := by
      rcases ht n hn with h | ⟨p, -, -, -, h⟩
      · exact h
      · omega
    subst hna
    exact ⟨ks, n :: acc, fun fuel _ => by unfold extractPath; rw [if_pos rfl], hc, by omega⟩
  | succ m ih =>
    intro n ks acc hn hd hc
    have hna : n ≠ a := by intro h; rw [h] at hd; omega
    obtain ⟨p, hp1, hp2, hp3, hp4⟩ := (ht n hn).resolve_left hna
    obtain ⟨k, q, h1, h2, h3⟩ := mem_nb.1 hp3
    obtain ⟨ks', path, h4, h5, h6⟩ := ih p (k :: ks) (n :: acc) hp1 (by omega)
      (.cons p k n b q ks (n :: acc) h1 ((hpass q).1 h2) h3 hc)
    refine ⟨ks', path, ?_, h5, by rw [h6]; simp only [List.length_cons]; omega⟩
    intro fuel hf
    obtain ⟨fuel, rfl⟩ : ∃ f, fuel = f + 1 := ⟨fuel - 1, by omega⟩
    unfold extractPath
    rw [if_neg hna, hp2]
    exact h4 fuel (by omega)

/-- **C84.** The search for a path between two leafs ends without an error. It finds nothing exactly if the leafs are not
connected by portals that satisfy the condition; otherwise it finds the leafs of a chain that crosses as few portals as
possible. -/
theorem shortest_path {pass : Portal → Bool} {ok : Portal → Prop} (hpass : ∀ p, pass p = true ↔ ok p) {ps : List Portal}
    (a b : Nat) : ∃ path, (∃ N, ∀ fuel ≥ N, findShortestPath pass ps a b fuel = some (.ok path)) ∧
      ((path = [] ∧ ¬ Reaches ok ps a b) ∨
        ∃ ks, Chain ok ps a ks path b ∧ ∀ ks' vs', Chain ok ps a ks' vs' b → ks.length ≤ ks'.length) := by
  have hi : PathInv (nb pass ps) a b ⟨[a], [a], fun _ => none⟩ (fun _ => 0) := by
    refine ⟨⟨by simp, rfl⟩, ?_, by simp, ?_, by simp, ⟨0, by simp, by simp⟩⟩
    · intro n hn; exact Or.inl (by simpa using hn)
    · intro n hn hq; exact absurd hn hq
  have hV : ∀ v ∈ a :: ps.flatMap fun p => [p.n0, p.n1], ∀ w ∈ nb pass ps v, w ∈ a :: ps.flatMap fun p => [p.n0, p.n1] := by
    intro v _ w hw
    obtain ⟨k, p, h1, -, h3⟩ := mem_nb.1 hw
    have hp := List.mem_of_getElem? h1
    simp only [List.mem_cons, List.mem_flatMap]
    refine Or.inr ⟨p, hp, ?_⟩
    rcases h3 with ⟨-, h⟩ | ⟨-, h⟩ <;> simp [h]
  obtain ⟨N, r, h1, h2⟩ : ∃ N r, (∀ fuel ≥ N, pathLoop pass ps b fuel ⟨[a], [a], fun _ => none⟩ = some r) ∧
      Found (nb pass ps) a b r := ⟨_, pathLoop_ok hV _ _ _ hi (by simp) (Nat.le_refl _)⟩
  cases r with
  | none =>
    refine ⟨[], ⟨_, fun fuel hf => by unfold findShortestPath; rw [h1 fuel hf]⟩, Or.inl ⟨rfl, ?_⟩⟩
    rintro ⟨ks, vs, hc⟩
    exact h2 _ (chain_walk hpass hc)
  | some parent =>
    obtain ⟨seen, d, h3, h4, h5, h6⟩ := h2
    obtain ⟨ks', path, h7, h8, h9⟩ := extractPath_ok hpass h4 h5 (d b) b [] [] h3 rfl (.nil b)
    refine ⟨path, ⟨N + d b, fun fuel hf => ?_⟩, Or.inr ⟨ks', h8, ?_⟩⟩
    · unfold findShortestPath
      rw [h1 fuel (Nat.le_trans (Nat.le_add_right _ _) hf)]
      exact h7 fuel (Nat.le_trans (Nat.le_add_left _ _) hf)
    · intro ks vs hc
      have := h6 _ (chain_walk hpass hc)
      simp only [List.length_nil] at h9
      omega

/-- Non-vacuity: a ring of five leafs with a portal that cannot be crossed (number 2), and a leaf apart. -/
example : findShortestPath (fun p => p.onnode ≠ some 2)
    [⟨0, 1, some 0⟩, ⟨1, 2, some 1⟩, ⟨2, 3, some 2⟩, ⟨3, 4, some 3⟩, ⟨4, 0, some 4⟩] 2 3 20 = some (.ok [2, 1, 0, 4, 3]) ∧
    findShortestPath (fun _ => true) [⟨0, 1, some 0⟩, ⟨1, 2, some 1⟩, ⟨2, 3, some 2⟩, ⟨3, 4, some 3⟩, ⟨4, 0, some 4⟩] 2 3 20 =
      some (.ok [2, 3]) ∧
    findShortestPath (fun _ => true) [⟨0, 1, some 0⟩, ⟨1, 2, some 1⟩] 2 5 20 = some (.ok []) :=
  ⟨by decide +kernel, by decide +kernel, by decide +kernel⟩

end Verif.Flood
