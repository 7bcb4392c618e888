import Verif.Contents.Lemmas
import Verif.Flood.Bfs

/-! Lemmas: contents, occupied leafs, the void leaf and the filling of leafs. -/

namespace Verif.Flood

open Spec Contents

theorem tst_bit' (c : Contents) (k : Nat) (hk : k < 64) : tst c (bit k) = c.getLsbD k := tst_bit c k hk

theorem seals_iff (g : Game) (c : Contents) : g.sealsMap c = true ↔ Seals g c := by
  cases g
  · simp only [Game.sealsMap, Q1.sealsMap, Q1.isSolid, Q1.isSky, Seals, Bool.or_eq_true, Bool.and_eq_true,
      Bool.not_eq_true', tst_bit' c 0 (by decide), tst_bit' c 1 (by decide), tst_bit' c 14 (by decide), true_and]
  · simp only [Game.sealsMap, Q2.sealsMap, Q2.isSolid, Q2.isSky, Seals, Bool.or_eq_true, Bool.and_eq_true,
      Bool.not_eq_true', tst_bit' c 0 (by decide), tst_bit' c 14 (by decide), Bool.false_eq_true, or_false]
    simp

theorem opaque_iff (g : Game) (c : Contents) : g.sealsDetail c = true ↔ Opaque g c := by
  cases g
  · simp only [Game.sealsDetail, Q1.isAnySolid, Q1.isSky, Opaque, Bool.or_eq_true,
      tst_bit' c 0 (by decide), tst_bit' c 1 (by decide), true_and]
  · simp only [Game.sealsDetail, Q2.isAnySolid, Q2.isSky, Opaque, Bool.or_eq_true,
      tst_bit' c 0 (by decide), Bool.false_eq_true, or_false]
    simp

theorem outsidePassable_iff (g : Game) (c : Nat → Contents) (p : Portal) :
    outsidePassable g c p = true ↔ Open g c p := by
  unfold outsidePassable Open
  rw [← seals_iff, ← seals_iff]
  cases p.onnode <;> simp

theorem detailPassable_iff (g : Game) (c : Nat → Contents) (p : Portal) :
    detailPassable g c p = true ↔ OpenDetail g c p := by
  unfold detailPassable OpenDetail
  rw [← opaque_iff, ← opaque_iff]
  cases p.onnode <;> simp

/-! ## Occupied leafs -/

/-- The entities from number `n` on. -/
def Counts (g : Game) (contents : Nat → Contents) (n : Nat) (es : List Ent) (i v : Nat) : Prop :=
  ∃ j e, i = n + j ∧ es[j]? = some e ∧ e.atOrigin = false ∧ e.nofill = false ∧ e.leaf = v ∧ ¬ Seals g (contents v)

theorem counts_cons {g : Game} {contents : Nat → Contents} {n : Nat} {e : Ent} {es : List Ent} {i v : Nat} :
    Counts g contents n (e :: es) i v ↔ (i = n ∧ e.atOrigin = false ∧ e.nofill = false ∧ e.leaf = v ∧
      ¬ Seals g (contents v)) ∨ Counts g contents (n + 1) es i v := by
  constructor
  · rintro ⟨j, e', h1, h2, h⟩
    cases j with
    | zero => simp only [List.getElem?_cons_zero, Option.some.injEq] at h2; subst h2; exact Or.inl ⟨h1, h⟩
    | succ j => exact Or.inr ⟨j, e', by omega, by simpa using h2, h⟩
  · rintro (⟨h1, h⟩ | ⟨j, e', h1, h2, h⟩)
    · exact ⟨0, e, by omega, by simp, h⟩
    · exact ⟨j + 1, e', by omega, by simpa using h2, h⟩

theorem markLoop_spec (g : Game) (contents : Nat → Contents) : ∀ (es : List Ent) (n : Nat) (occ : Nat → Option Nat) (v : Nat),
    (∀ i, markLoop g contents n es occ v = some i → occ v = some i ∨ Counts g contents n es i v) ∧
      (markLoop g contents n es occ v = none → occ v = none ∧ ∀ i, ¬ Counts g contents n es i v) := by
  intro es
  induction es with
  | nil =>
    intro n occ v
    refine ⟨fun i h => Or.inl h, fun h => ⟨h, ?_⟩⟩
    rintro i ⟨j, e, -, h, -⟩
    simp at h
  | cons e es ih =>
    intro n occ v
    have skip : (∀ i, ¬ (i = n ∧ e.atOrigin = false ∧ e.nofill = false ∧ e.leaf = v ∧ ¬ Seals g (contents v))) ∨
        occ v ≠ none → markLoop g contents n (e :: es) occ = markLoop g contents (n + 1) es occ →
        (∀ i, markLoop g contents n (e :: es) occ v = some i → occ v = some i ∨ Counts g contents n (e :: es) i v) ∧
        (markLoop g contents n (e :: es) occ v = none → occ v = none ∧ ∀ i, ¬ Counts g contents n (e :: es) i v) := by
      intro h heq
      rw [heq]
      obtain ⟨h1, h2⟩ := ih (n + 1) occ v
      refine ⟨fun i hi => (h1 i hi).imp id fun h => counts_cons.2 (Or.inr h), fun hn => ⟨(h2 hn).1, fun i hc => ?_⟩⟩
      rcases counts_cons.1 hc with hc | hc
      · rcases h with h | h
        · exact h i hc
        · exact h (h2 hn).1
      · exact (h2 hn).2 i hc
    by_cases h1 : e.atOrigin = true
    · exact skip (Or.inl (by rintro i ⟨-, h, -⟩; simp [h] at h1)) (by simp [markLoop, h1])
    by_cases h2 : e.nofill = true
    · exact skip (Or.inl (by rintro i ⟨-, -, h, -⟩; simp [h] at h2)) (by simp [markLoop, h1, h2])
    by_cases h3 : g.sealsMap (contents e.leaf) = true
    · exact skip (Or.inl (by rintro i ⟨-, -, -, rfl, h⟩; exact h ((seals_iff _ _).1 h3))) (by simp [markLoop, h1, h2, h3])
    by_cases h4 : occ e.leaf ≠ none
    · refine skip ?_ (by simp [markLoop, h1, h2, h3, h4])
      by_cases hv : e.leaf = v
      · exact Or.inr (hv ▸ h4)
      · exact Or.inl (by rintro i ⟨-, -, -, h, -⟩; exact hv h)
    · have heq : markLoop g contents n (e :: es) occ = markLoop g contents (n + 1) es (setAt occ e.leaf (some n)) := by
        simp only [markLoop]
        rw [if_neg h1, if_neg h2, if_neg h3, if_neg h4]
      rw [heq]
      obtain ⟨g1, g2⟩ := ih (n + 1) (setAt occ e.leaf (some n)) v
      have hns : ¬ Seals g (contents e.leaf) := fun h => h3 ((seals_iff _ _).2 h)
      by_cases hv : v = e.leaf
      · subst hv
        rw [setAt_self] at g1 g2
        refine ⟨fun i hi => ?_, fun hn => by simpa using (g2 hn).1⟩
        rcases g1 i hi with h | h
        · cases h
          exact Or.inr (counts_cons.2 (Or.inl ⟨rfl, by simpa using h1, by simpa using h2, rfl, hns⟩))
        · exact Or.inr (counts_cons.2 (Or.inr h))
      · rw [setAt_ne _ _ hv] at g1 g2
        refine ⟨fun i hi => (g1 i hi).imp id fun h => counts_cons.2 (Or.inr h), fun hn => ⟨(g2 hn).1, fun i hc => ?_⟩⟩
        rcases counts_cons.1 hc with hc | hc
        · exact hv hc.2.2.2.1.symm
        · exact (g2 hn).2 i hc

theorem counts_occupies {g : Game} {w : Map} {i v : Nat} :
    Counts g w.contents 1 (w.ents.drop 1) i v ↔ Occupies g w i v := by
  constructor
  · rintro ⟨j, e, rfl, h, h'⟩
    exact ⟨e, by rw [List.getElem?_drop] at h; exact h, by omega, h'⟩
  · rintro ⟨e, h, h0, h'⟩
    exact ⟨i - 1, e, by omega, by rw [List.getElem?_drop, show 1 + (i - 1) = i by omega]; exact h, h'⟩

theorem markOccupied_some {g : Game} {w : Map} {i v : Nat} (h : markOccupied g w.contents w.ents v = some i) :
    Occupies g w i v := by
  rcases (markLoop_spec g w.contents (w.ents.drop 1) 1 (fun _ => none) v).1 i h with h | h
  · cases h
  · exact counts_occupies.1 h

theorem markOccupied_none {g : Game} {w : Map} {v : Nat} (h : markOccupied g w.contents w.ents v = none) :
    ¬ Occupied g w v := by
  rintro ⟨i, hi⟩
  exact ((markLoop_spec g w.contents (w.ents.drop 1) 1 (fun _ => none) v).2 h).2 i (counts_occupies.2 hi)

theorem mem_starts {g : Game} {w : Map} (hw : WellFormed w) {v : Nat} :
    v ∈ findOccupied w.leafs (markOccupied g w.contents w.ents) ↔ Occupied g w v := by
  simp only [findOccupied, List.mem_filter]
  constructor
  · rintro ⟨-, h⟩
    obtain ⟨i, hi⟩ := Option.isSome_iff_exists.1 h
    exact ⟨i, markOccupied_some hi⟩
  · intro h
    refine ⟨?_, ?_⟩
    · obtain ⟨i, e, he, -, -, -, rfl, -⟩ := h
      exact hw.ents e (List.mem_of_getElem? he)
    · cases ho : markOccupied g w.contents w.ents v with
      | none => exact absurd h (markOccupied_none ho)
      | some i => rfl

/-! ## The void leaf -/

theorem portalsOf_append (ps : List Portal) (p : Portal) (v : Nat) :
    portalsOf (ps ++ [p]) v = if p.n0 = v ∨ p.n1 = v then (ps.length, p) :: portalsOf ps v else portalsOf ps v := by
  unfold portalsOf
  rw [List.zipIdx_append]
  by_cases h : p.n0 = v ∨ p.n1 = v
  · rw [if_pos h]
    rcases h with h | h <;> simp [List.filter_append, h]
  · rw [if_neg h]
    rw [not_or] at h
    simp [List.filter_append, h.1, h.2]

theorem portalsOf_append_none (ps post : List Portal) (v : Nat) (h : ∀ q ∈ post, q.n0 ≠ v ∧ q.n1 ≠ v) :
    portalsOf (ps ++ post) v = portalsOf ps v := by
  induction post generalizing ps with
  | nil => simp
  | cons q post ih =>
    rw [show ps ++ q :: post = (ps ++ [q]) ++ post by simp, ih _ fun r hr => h r (by simp [hr]), portalsOf_append,
      if_neg (not_or.2 (h q (by simp)))]

theorem between_across {p : Portal} {u v : Nat} (h : Between p u v) : across p u = v := by
  unfold across
  rcases h with ⟨h, h'⟩ | ⟨h, h'⟩
  · rw [if_pos h, h']
  · by_cases h0 : p.n0 = u
    · rw [if_pos h0, h, ← h', h0]
    · rw [if_neg h0, h']

/-! ## Filling -/

theorem seals_solid (g : Game) : Seals g solidContents := Or.inl (by decide)

theorem outLeafs_spec {g : Game} {inside : Bool} {occ dist : Nat → Int} : ∀ (leafs : List Nat) (c : Nat → Contents) (v : Nat),
    ((v ∈ leafs ∧ ¬ Seals g (c v) ∧ (if inside then occ v ≤ 0 else dist v ≠ -1)) →
      outLeafsToSolid g inside occ dist leafs c v = solidContents) ∧
    (¬ (v ∈ leafs ∧ ¬ Seals g (c v) ∧ (if inside then occ v ≤ 0 else dist v ≠ -1)) →
      outLeafsToSolid g inside occ dist leafs c v = c v) := by
  intro leafs
  induction leafs with
  | nil => intro c v; exact ⟨fun h => by simp at h, fun _ => rfl⟩
  | cons u leafs ih =>
    intro c v
    have hskip : ((if inside then decide (occ u > 0) else decide (dist u = -1)) = true) ↔
        ¬ (if inside then occ u ≤ 0 else dist u ≠ -1) := by
      cases inside <;> simp
    simp only [outLeafsToSolid]
    by_cases hs : (if inside then decide (occ u > 0) else decide (dist u = -1)) = true
    · rw [if_pos hs]
      rw [hskip] at hs
      obtain ⟨h1, h2⟩ := ih c v
      refine ⟨fun h => ?_, fun h => ?_⟩
      · refine h1 ⟨(List.mem_cons.1 h.1).resolve_left ?_, h.2⟩
        rintro rfl
        exact hs h.2.2
      · exact h2 fun h' => h ⟨by simp [h'.1], h'.2⟩
    · rw [if_neg hs]
      rw [hskip, Classical.not_not] at hs
      by_cases hu : g.sealsMap (c u) = true
      · rw [if_pos hu]
        obtain ⟨h1, h2⟩ := ih c v
        refine ⟨fun h => ?_, fun h => ?_⟩
        · refine h1 ⟨(List.mem_cons.1 h.1).resolve_left ?_, h.2⟩
          rintro rfl
          exact h.2.1 ((seals_iff _ _).1 hu)
        · exact h2 fun h' => h ⟨by simp [h'.1], h'.2⟩
      · rw [if_neg hu]
        obtain ⟨h1, h2⟩ := ih (setAt c u solidContents) v
        by_cases hv : v = u
        · subst hv
          rw [setAt_self] at h1 h2
          have := h2 fun h => h.2.1 (seals_solid g)
          exact ⟨fun _ => this, fun h => absurd ⟨by simp, fun hh => hu ((seals_iff _ _).2 hh), hs⟩ h⟩
        · rw [setAt_ne _ _ hv] at h1 h2
          refine ⟨fun h => h1 ⟨(List.mem_cons.1 h.1).resolve_left hv, h.2⟩, fun h => h2 fun h' => h ⟨by simp [h'.1], h'.2⟩⟩

theorem opaque_detailSolid (g : Game) : Opaque g g.detailSolid := Or.inl (by cases g <;> decide)

theorem detailLeafs_spec {g : Game} {occ : Nat → Int} : ∀ (leafs : List Nat) (c : Nat → Contents) (v : Nat),
    ((v ∈ leafs ∧ ¬ Opaque g (c v) ∧ occ v ≤ 0) → detailLeafsToSolid g occ leafs c v = g.detailSolid) ∧
    (¬ (v ∈ leafs ∧ ¬ Opaque g (c v) ∧ occ v ≤ 0) → detailLeafsToSolid g occ leafs c v = c v) := by
  intro leafs
  induction leafs with
  | nil => intro c v; exact ⟨fun h => by simp at h, fun _ => rfl⟩
  | cons u leafs ih =>
    intro c v
    simp only [detailLeafsToSolid]
    by_cases hs : occ u > 0
    · rw [if_pos hs]
      obtain ⟨h1, h2⟩ := ih c v
      refine ⟨fun h => ?_, fun h => ?_⟩
      · refine h1 ⟨(List.mem_cons.1 h.1).resolve_left ?_, h.2⟩
        rintro rfl
        have := h.2.2
        omega
      · exact h2 fun h' => h ⟨by simp [h'.1], h'.2⟩
    · rw [if_neg hs]
      by_cases hu : g.sealsDetail (c u) = true
      · rw [if_pos hu]
        obtain ⟨h1, h2⟩ := ih c v
        refine ⟨fun h => ?_, fun h => ?_⟩
        · refine h1 ⟨(List.mem_cons.1 h.1).resolve_left ?_, h.2⟩
          rintro rfl
          exact h.2.1 ((opaque_iff _ _).1 hu)
        · exact h2 fun h' => h ⟨by simp [h'.1], h'.2⟩
      · rw [if_neg hu]
        obtain ⟨h1, h2⟩ := ih (setAt c u g.detailSolid) v
        by_cases hv : v = u
        · subst hv
          rw [setAt_self] at h1 h2
          have := h2 fun h => h.2.1 (opaque_detailSolid g)
          exact ⟨fun _ => this, fun h => absurd ⟨by simp, fun hh => hu ((opaque_iff _ _).2 hh), by omega⟩ h⟩
        · rw [setAt_ne _ _ hv] at h1 h2
          refine ⟨fun h => h1 ⟨(List.mem_cons.1 h.1).resolve_left hv, h.2⟩, fun h => h2 fun h' => h ⟨by simp [h'.1], h'.2⟩⟩

/-! ## The closest leak -/

theorem bestLeak_spec {dist : Nat → Int} : ∀ (l : List Nat) (best : Option (Nat × Int)),
    (∀ x, best = some x → dist x.1 = x.2 ∧ x.2 ≠ -1) →
    (bestLeak dist l best = none → best = none ∧ ∀ v ∈ l, dist v = -1) ∧
    (∀ x, bestLeak dist l best = some x → dist x.1 = x.2 ∧ x.2 ≠ -1 ∧ (x.1 ∈ l ∨ best = some x) ∧
      (∀ v ∈ l, dist v ≠ -1 → x.2 ≤ dist v) ∧ ∀ y, best = some y → x.2 ≤ y.2) := by
  intro l
  induction l with
  | nil =>
    intro best hb
    exact ⟨fun h => ⟨h, by simp⟩, fun x h => ⟨(hb x h).1, (hb x h).2, Or.inr h, by simp,
      fun y hy => by simp only [bestLeak] at h; rw [h] at hy; cases hy; exact Int.le_refl _⟩⟩
  | cons v l ih =>
    intro best hb
    simp only [bestLeak]
    by_cases hv : dist v = -1
    · rw [if_pos hv]
      obtain ⟨h1, h2⟩ := ih best hb
      refine ⟨fun h => ⟨(h1 h).1, ?_⟩, fun x h => ?_⟩
      · intro u hu
        rcases List.mem_cons.1 hu with rfl | hu
        · exact hv
        · exact (h1 h).2 u hu
      · obtain ⟨a, b, c, d, e⟩ := h2 x h
        refine ⟨a, b, c.imp (fun h => by simp [h]) id, ?_, e⟩
        intro u hu hn
        rcases List.mem_cons.1 hu with rfl | hu
        · exact absurd hv hn
        · exact d u hu hn
    · rw [if_neg hv]
      have take : (∀ y, best = some y → dist v < y.2) →
          (bestLeak dist l (some (v, dist v)) = none → best = none ∧ ∀ u ∈ v :: l, dist u = -1) ∧
          (∀ x, bestLeak dist l (some (v, dist v)) = some x → dist x.1 = x.2 ∧ x.2 ≠ -1 ∧
            (x.1 ∈ v :: l ∨ best = some x) ∧ (∀ u ∈ v :: l, dist u ≠ -1 → x.2 ≤ dist u) ∧
            ∀ y, best = some y → x.2 ≤ y.2) := by
        intro hlt
        obtain ⟨h1, h2⟩ := ih (some (v, dist v)) (by intro x hx; cases hx; exact ⟨rfl, hv⟩)
        refine ⟨fun h => by simpa using (h1 h).1, fun x h => ?_⟩
        obtain ⟨a, b, c, d, e⟩ := h2 x h
        have hxv := e _ rfl
        refine ⟨a, b, Or.inl ?_, ?_, ?_⟩
        · rcases c with c | c
          · simp [c]
          · cases c; simp
        · intro u hu hn
          rcases List.mem_cons.1 hu with rfl | hu
          · exact hxv
          · exact d u hu hn
        · intro y hy
          have := hlt y hy
          simp only at hxv
          omega
      cases best with
      | none => exact take (by simp)
      | some y =>
        obtain ⟨u, d⟩ := y
        simp only
        by_cases hlt : dist v < d
        · rw [if_pos hlt]
          exact take (by intro y hy; cases hy; exact hlt)
        · rw [if_neg hlt]
          obtain ⟨h1, h2⟩ := ih (some (u, d)) hb
          refine ⟨fun h => by simpa using (h1 h).1, fun x h => ?_⟩
          obtain ⟨a, b, c, dd, e⟩ := h2 x h
          refine ⟨a, b, c.imp (fun h => by simp [h]) id, ?_, e⟩
          intro u' hu hn
          rcases List.mem_cons.1 hu with rfl | hu
          · have := e _ rfl; simp only at this; omega
          · exact dd u' hu hn

end Verif.Flood
