import Mathlib.Tactic.ByContra
import Verif.Flood.OutsideLemmas
import Verif.Flood.PortalProps

/-! C50-C53, C80: outside filling and detail filling. -/

namespace Verif.Flood

open Spec Contents

namespace Spec

/-- The leaf that stands for the void: it is next to the outside through the last portal that leads outside. -/
def VoidLeaf (w : Map) (v : Nat) : Prop :=
  ∃ pre p post, w.portals = pre ++ p :: post ∧ Between p w.outside v ∧
    ∀ q ∈ post, q.n0 ≠ w.outside ∧ q.n1 ≠ w.outside

end Spec

/-- Outside filling ends with the result `r`. -/
def FillEnds (o : FillOptions) (w : Map) (r : FillResult) : Prop :=
  ∃ N, ∀ fuel ≥ N, fillOutside o w fuel = some (.ok r)

/-- An entity has an open way to the void leaf. -/
def Leaks (g : Game) (w : Map) (v0 : Nat) : Prop :=
  ∃ v, Occupied g w v ∧ Reaches (Open g w.contents) w.portals v v0

theorem fillEnds_unique {o : FillOptions} {w : Map} {r r' : FillResult} (h : FillEnds o w r) (h' : FillEnds o w r') :
    r = r' := by
  obtain ⟨N, h⟩ := h
  obtain ⟨N', h'⟩ := h'
  have h1 := h (N + N') (by omega)
  have h2 := h' (N + N') (by omega)
  rw [h1] at h2
  cases h2
  rfl

theorem fillNode_void {w : Map} {v0 : Nat} (hv : VoidLeaf w v0) : fillNode w.portals w.outside = .ok v0 := by
  obtain ⟨pre, p, post, h1, h2, h3⟩ := hv
  unfold fillNode
  rw [h1, show pre ++ p :: post = (pre ++ [p]) ++ post by simp, portalsOf_append_none _ _ _ h3, portalsOf_append]
  have : p.n0 = w.outside ∨ p.n1 = w.outside := by
    rcases h2 with ⟨h, -⟩ | ⟨h, -⟩
    · exact Or.inl h
    · exact Or.inr h
  rw [if_pos this]
  simp only [between_across h2]

/-- Every well-formed map has exactly one such leaf, and it is a leaf of the rim. -/
theorem voidLeaf_exists {w : Map} (hw : WellFormed w) : ∃ v, VoidLeaf w v ∧ Rim w v ∧ v ≠ w.outside := by
  obtain ⟨v, p, hp, hb⟩ := hw.rim
  have key : ∀ (ps : List Portal), (∃ p ∈ ps, ∃ v, Between p w.outside v) →
      ∃ pre p post v, ps = pre ++ p :: post ∧ Between p w.outside v ∧ ∀ q ∈ post, q.n0 ≠ w.outside ∧ q.n1 ≠ w.outside := by
    intro ps
    induction ps with
    | nil => rintro ⟨p, h, -⟩; simp at h
    | cons a ps ih =>
      rintro ⟨p, h, v, hb⟩
      by_cases hex : ∃ p ∈ ps, ∃ v, Between p w.outside v
      · obtain ⟨pre, q, post, v, h1, h2, h3⟩ := ih hex
        exact ⟨a :: pre, q, post, v, by simp [h1], h2, h3⟩
      · rcases List.mem_cons.1 h with rfl | h
        · refine ⟨[], p, ps, v, rfl, hb, fun q hq => ⟨fun h0 => hex ⟨q, hq, q.n1, Or.inl ⟨h0, rfl⟩⟩, fun h1 => hex ⟨q, hq, q.n0, Or.inr ⟨h1, rfl⟩⟩⟩⟩
        · exact absurd ⟨p, h, v, hb⟩ hex
  obtain ⟨pre, q, post, v', h1, h2, h3⟩ := key w.portals ⟨p, hp, v, hb⟩
  have hq : q ∈ w.portals := by rw [h1]; simp
  refine ⟨v', ⟨pre, q, post, h1, h2, h3⟩, ⟨q, hq, h2⟩, ?_⟩
  rintro rfl
  have := hw.ne q hq
  rcases h2 with ⟨a, b⟩ | ⟨a, b⟩
  · exact this (a.trans b.symm)
  · exact this (b.trans a.symm)

/-! ## C50 -/

/-- The leafs that matter for a search. -/
theorem nb_closed {w : Map} (hw : WellFormed w) {pass : Portal → Bool} (hpass : ∀ p, pass p = true → p.onnode ≠ none) :
    ∀ v ∈ w.leafs, ∀ x ∈ nb pass w.portals v, x ∈ w.leafs := by
  intro v _ x hx
  obtain ⟨k, p, h1, h2, h3⟩ := mem_nb.1 hx
  have := hw.inner p (List.mem_of_getElem? h1) (hpass p h2)
  rcases h3 with ⟨-, h⟩ | ⟨-, h⟩
  · exact h ▸ this.2
  · exact h ▸ this.1

theorem floodOccupied_marks {w : Map} (hw : WellFormed w) {pass : Portal → Bool}
    (hpass : ∀ p, pass p = true → p.onnode ≠ none) {starts : List Nat} (hs : ∀ s ∈ starts, s ∈ w.leafs) :
    ∃ m N, (∀ fuel ≥ N, floodFromOccupied pass w.portals starts fuel = some m) ∧
      Marks (nb pass w.portals) 0 1 starts m := by
  obtain ⟨m, N, h1, h2⟩ := bfs_marks (unseen := 0) (base := 1) (by decide) starts (nb_closed hw hpass) hs
  exact ⟨m, N, fun fuel hf => by unfold floodFromOccupied; rw [occLoop_bfs]; exact h1 fuel hf, h2⟩

theorem floodVoid_marks {g : Game} {w : Map} (hw : WellFormed w) {v0 : Nat} (hv : v0 ∈ w.leafs)
    (hs : ¬ Seals g (w.contents v0)) :
    ∃ m N, (∀ fuel ≥ N, floodFromVoid g w.contents w.portals w.outside v0 fuel = some (.ok m)) ∧
      Marks (nb (outsidePassable g w.contents) w.portals) (-1) 0 [v0] m := by
  obtain ⟨m, N, h1, h2⟩ := bfs_marks (unseen := -1) (base := 0) (by decide) [v0]
    (nb_closed hw fun p hp => ((outsidePassable_iff g w.contents p).1 hp).1) (by simpa using hv)
  refine ⟨m, N, fun fuel hf => ?_, h2⟩
  unfold floodFromVoid
  have hne : v0 ≠ w.outside := by rintro rfl; exact hw.notLeaf hv
  rw [if_neg hne, if_neg (fun h => hs ((seals_iff _ _).1 h)),
    voidLoop_bfs _ _ fuel [] [(v0, 0)] _ (by simp) (by simp)]
  have := h1 fuel hf
  simp only [List.map_cons, List.map_nil] at this
  rw [this]
  rfl

/-- **C50, from the occupied leafs.** The search ends. A leaf keeps mark 0 exactly if no occupied leaf reaches it;
otherwise its mark is one more than the smallest number of portals between it and an occupied leaf. -/
theorem flood_occupied {g : Game} {w : Map} (hw : WellFormed w) {starts : List Nat} (hs : ∀ s ∈ starts, s ∈ w.leafs) :
    ∃ m N, (∀ fuel ≥ N, floodFromOccupied (outsidePassable g w.contents) w.portals starts fuel = some m) ∧
      ∀ v, (m v = 0 ∧ ∀ s ∈ starts, ¬ Reaches (Open g w.contents) w.portals s v) ∨
        ∃ d : Nat, m v = d + 1 ∧ Nearest (Open g w.contents) w.portals (· ∈ starts) v d := by
  obtain ⟨m, N, h1, h2⟩ := floodOccupied_marks hw (fun p hp => ((outsidePassable_iff g w.contents p).1 hp).1) hs
  refine ⟨m, N, h1, fun v => ?_⟩
  rcases marks_nearest (outsidePassable_iff g w.contents) h2 v with h | ⟨-, d, hd, h⟩
  · exact Or.inl h
  · exact Or.inr ⟨d, by omega, h⟩

/-- **C50, from the void.** A leaf keeps distance -1 exactly if the void leaf does not reach it; otherwise its distance
is the smallest number of portals between it and the void leaf. -/
theorem flood_void {g : Game} {w : Map} (hw : WellFormed w) {v0 : Nat} (hv : v0 ∈ w.leafs)
    (hs : ¬ Seals g (w.contents v0)) :
    ∃ m N, (∀ fuel ≥ N, floodFromVoid g w.contents w.portals w.outside v0 fuel = some (.ok m)) ∧
      ∀ v, (m v = -1 ∧ ¬ Reaches (Open g w.contents) w.portals v0 v) ∨
        ∃ d : Nat, m v = d ∧ Nearest (Open g w.contents) w.portals (· = v0) v d := by
  obtain ⟨m, N, h1, h2⟩ := floodVoid_marks hw hv hs
  refine ⟨m, N, h1, fun v => ?_⟩
  rcases marks_nearest (outsidePassable_iff g w.contents) h2 v with ⟨h, h'⟩ | ⟨-, d, hd, h⟩
  · exact Or.inl ⟨h, h' v0 (by simp)⟩
  · refine Or.inr ⟨d, by omega, ?_⟩
    simpa [Nearest] using h

/-! ## C51-C53 -/

/-- What a search for a leak has to deliver. -/
def GoodLeak (g : Game) (w : Map) (v0 : Nat) : Option (Nat × List Nat) → Prop
  | none => ¬ Leaks g w v0
  | some (e, line) => ∃ v vs, Occupies g w e v ∧ Chain (Open g w.contents) w.portals v line vs v0 ∧ vs.Nodup ∧
      ∀ u ks us, Occupied g w u → Chain (Open g w.contents) w.portals u ks us v0 → line.length ≤ ks.length

theorem nodup_rev {l : List Nat} (h : l.Nodup) : l.reverse.Nodup := by
  rw [List.nodup_iff_pairwise_ne] at *
  rw [List.pairwise_reverse]
  exact h.imp fun h => h.symm

theorem searchInside_ok (o : FillOptions) {w : Map} (hw : WellFormed w) {v0 : Nat} (hv : VoidLeaf w v0) :
    ∃ leak m N, (∀ fuel ≥ N, searchInside o w (markOccupied o.game w.contents w.ents)
        (findOccupied w.leafs (markOccupied o.game w.contents w.ents)) fuel = some (.ok (leak, m))) ∧
      GoodLeak o.game w v0 leak ∧
      ∀ v, m v ≤ 0 ↔ ¬ ∃ u, Occupied o.game w u ∧ Reaches (Open o.game w.contents) w.portals u v := by
  have hst := fun v => mem_starts (g := o.game) hw (v := v)
  obtain ⟨m, N, h1, h2⟩ := floodOccupied_marks hw
    (fun p hp => ((outsidePassable_iff o.game w.contents p).1 hp).1)
    (starts := findOccupied w.leafs (markOccupied o.game w.contents w.ents))
    (fun s hs => (List.mem_filter.1 hs).1)
  have hnear := marks_nearest (outsidePassable_iff o.game w.contents) h2
  have hm0 : ∀ v, m v ≤ 0 ↔ ¬ ∃ u, Occupied o.game w u ∧ Reaches (Open o.game w.contents) w.portals u v := by
    intro v
    rcases hnear v with ⟨h, h'⟩ | ⟨h, d, hd, ⟨s, ks, vs, hs, hc, -⟩, -⟩
    · refine ⟨fun _ => ?_, fun _ => by omega⟩
      rintro ⟨u, hu, hr⟩
      exact h' u ((hst u).2 hu) hr
    · refine ⟨fun h => by omega, fun hn => absurd ⟨s, (hst s).1 hs, ks, vs, hc⟩ hn⟩
  have hfill := fillNode_void hv
  by_cases hpos : m v0 > 0
  · rcases hnear v0 with ⟨h, -⟩ | ⟨-, d, hd, hnd⟩
    · omega
    obtain ⟨line, vs, last, f1, f2, f3, f4, f5, f6, -⟩ :=
      followLine_ok (outsidePassable_iff o.game w.contents) hw.ne h2 (by decide) d v0 (by omega)
    have hocc := (hst last).1 f5
    cases ho : markOccupied o.game w.contents w.ents last with
    | none => exact absurd hocc (markOccupied_none ho)
    | some e =>
      refine ⟨some (e, line.reverse), m, N + d, fun fuel hf => ?_, ?_, hm0⟩
      · unfold searchInside
        simp only [h1 fuel (by omega), hfill]
        rw [if_pos hpos]
        simp only [f1 fuel (by omega), leakFromInside, ho]
      · refine ⟨last, vs.reverse, markOccupied_some ho, chain_reverse f2, nodup_rev f6, ?_⟩
        intro u ks us hu hc
        have := hnd.2 u ks us ((hst u).2 hu) hc
        simp only [List.length_reverse, f3]
        exact this
  · refine ⟨none, m, N, fun fuel hf => ?_, ?_, hm0⟩
    · unfold searchInside
      simp only [h1 fuel (by omega), hfill]
      rw [if_neg hpos]
    · exact (hm0 v0).1 (by omega)

theorem voidLeaf_mem {w : Map} (hw : WellFormed w) {v0 : Nat} (hv : VoidLeaf w v0) : v0 ∈ w.leafs := by
  obtain ⟨pre, p, post, h1, h2, -⟩ := hv
  have hp : p ∈ w.portals := by rw [h1]; simp
  by_cases ho : p.onnode = none
  · rcases hw.outer p hp ho with ⟨h, h'⟩ | ⟨h, h'⟩
    · rcases h2 with ⟨a, b⟩ | ⟨a, b⟩
      · exact b ▸ h'
      · exact absurd (h.trans a.symm) (hw.ne p hp)
    · rcases h2 with ⟨a, b⟩ | ⟨a, b⟩
      · exact absurd (a.trans h.symm) (hw.ne p hp)
      · exact b ▸ h'
  · have := hw.inner p hp ho
    rcases h2 with ⟨a, b⟩ | ⟨a, b⟩
    · exact absurd (a ▸ this.1) hw.notLeaf
    · exact absurd (a ▸ this.2) hw.notLeaf

theorem searchOutside_ok (o : FillOptions) {w : Map} (hw : WellFormed w) {v0 : Nat} (hv : VoidLeaf w v0)
    (hs : ¬ Seals o.game (w.contents v0)) :
    ∃ leak m N, (∀ fuel ≥ N, searchOutside o w (markOccupied o.game w.contents w.ents)
        (findOccupied w.leafs (markOccupied o.game w.contents w.ents)) fuel = some (.ok (leak, m))) ∧
      GoodLeak o.game w v0 leak ∧
      ∀ v, m v ≠ -1 ↔ Reaches (Open o.game w.contents) w.portals v0 v := by
  have hst := fun v => mem_starts (g := o.game) hw (v := v)
  obtain ⟨m, N, h1, h2⟩ := floodVoid_marks hw (voidLeaf_mem hw hv) hs
  have hnear := marks_nearest (outsidePassable_iff o.game w.contents) h2
  have hm0 : ∀ v, m v ≠ -1 ↔ Reaches (Open o.game w.contents) w.portals v0 v := by
    intro v
    rcases hnear v with ⟨h, h'⟩ | ⟨h, d, hd, ⟨s, ks, vs, hs, hc, -⟩, -⟩
    · exact ⟨fun hn => absurd h hn, fun hr => absurd hr (h' v0 (by simp))⟩
    · have : s = v0 := by simpa using hs
      subst this
      exact ⟨fun _ => ⟨ks, vs, hc⟩, fun _ => h⟩
  have hfill := fillNode_void hv
  obtain ⟨b1, b2⟩ := bestLeak_spec (dist := m) (findOccupied w.leafs (markOccupied o.game w.contents w.ents)) none
    (by simp)
  cases hbest : bestLeak m (findOccupied w.leafs (markOccupied o.game w.contents w.ents)) none with
  | none =>
    refine ⟨none, m, N, fun fuel hf => ?_, ?_, hm0⟩
    · unfold searchOutside
      simp only [hfill, h1 fuel hf, hbest]
    · rintro ⟨v, hocc, hr⟩
      exact (hm0 v).2 (reaches_symm hr) ((b1 hbest).2 v ((hst v).2 hocc))
  | some x =>
    obtain ⟨v, d'⟩ := x
    obtain ⟨c1, c2, c3, c4, -⟩ := b2 _ hbest
    simp only at c1 c2 c3 c4
    have hvm : v ∈ findOccupied w.leafs (markOccupied o.game w.contents w.ents) := by simpa using c3
    rcases hnear v with ⟨h, -⟩ | ⟨-, d, hd, hnd⟩
    · omega
    obtain ⟨line, vs, last, f1, f2, f3, f4, f5, f6, -⟩ :=
      followLine_ok (outsidePassable_iff o.game w.contents) hw.ne h2 (by decide) d v (by omega)
    have hlast : last = v0 := by simpa using f5
    subst hlast
    cases ho : markOccupied o.game w.contents w.ents v with
    | none => exact absurd ((hst v).1 hvm) (markOccupied_none ho)
    | some e =>
      refine ⟨some (e, line), m, N + d, fun fuel hf => ?_, ?_, hm0⟩
      · unfold searchOutside
        simp only [hfill, h1 fuel (by omega), hbest, ho]
        rw [if_neg (by omega)]
        simp only [f1 fuel (by omega)]
      · refine ⟨v, vs, markOccupied_some ho, f2, f6, ?_⟩
        intro u ks us hu hc
        have hru : Reaches (Open o.game w.contents) w.portals last u := reaches_symm ⟨ks, us, hc⟩
        have hle := c4 u ((hst u).2 hu) ((hm0 u).2 hru)
        rcases hnear u with ⟨h, -⟩ | ⟨-, du, hdu, hndu⟩
        · exact absurd h ((hm0 u).2 hru)
        · have := hndu.2 last ks.reverse us.reverse (by simp) (chain_reverse hc)
          simp only [List.length_reverse] at this
          omega

/-- What outside filling comes to when an entity is in open space. -/
theorem fill_master (o : FillOptions) {w : Map} (hw : WellFormed w) {v0 : Nat} (hv : VoidLeaf w v0)
    (hs : ¬ Seals o.game (w.contents v0)) (hocc : ∃ v, Occupied o.game w v) :
    ∃ leak occ dist, FillEnds o w (finishFill o w (o.filltype ≠ .outside) occ dist leak) ∧ GoodLeak o.game w v0 leak ∧
      (o.filltype ≠ .outside → ∀ v, occ v ≤ 0 ↔ ¬ ∃ u, Occupied o.game w u ∧
        Reaches (Open o.game w.contents) w.portals u v) ∧
      (o.filltype = .outside → ∀ v, dist v ≠ -1 ↔ Reaches (Open o.game w.contents) w.portals v0 v) := by
  have hne : (findOccupied w.leafs (markOccupied o.game w.contents w.ents)).isEmpty = false := by
    obtain ⟨v, h⟩ := hocc
    have := (mem_starts hw).2 h
    cases hl : findOccupied w.leafs (markOccupied o.game w.contents w.ents) with
    | nil => rw [hl] at this; simp at this
    | cons a l => rfl
  by_cases hft : o.filltype = .outside
  · obtain ⟨leak, m, N, h1, h2, h3⟩ := searchOutside_ok o hw hv hs
    refine ⟨leak, fun _ => 0, m, ⟨N, fun fuel hf => ?_⟩, h2, fun h => absurd hft h, fun _ => h3⟩
    unfold fillOutside
    simp only [hne, hft, h1 fuel hf, Bool.false_eq_true, if_false]
    simp
  · obtain ⟨leak, m, N, h1, h2, h3⟩ := searchInside_ok o hw hv
    refine ⟨leak, m, fun _ => -1, ⟨N, fun fuel hf => ?_⟩, h2, fun _ => h3, fun h => absurd h hft⟩
    unfold fillOutside
    simp only [hne, Bool.false_eq_true, if_false]
    cases hty : o.filltype with
    | outside => exact absurd hty hft
    | auto => simp only [h1 fuel hf]; simp
    | inside => simp only [h1 fuel hf]; simp

/-- **C51.** Given an entity in open space: a leak is reported exactly if an occupied leaf has an open way to the void
leaf; the map is filled exactly if none is reported. The first leak is written to the .pts file, and then the .prt file
goes unless -keepprt, and the program ends if -leaktest. -/
theorem leak_iff (o : FillOptions) {w : Map} (hw : WellFormed w) {v0 : Nat} (hv : VoidLeaf w v0)
    (hs : ¬ Seals o.game (w.contents v0)) (hocc : ∃ v, Occupied o.game w v) {r : FillResult} (hr : FillEnds o w r) :
    (r.leak ≠ none ↔ Leaks o.game w v0) ∧ (r.filled = true ↔ ¬ Leaks o.game w v0) ∧
      (r.leakfile = true ↔ o.leakfile = true ∨ Leaks o.game w v0) ∧
      (r.wrotePts = true ↔ o.leakfile = false ∧ Leaks o.game w v0) ∧
      (r.removedPrt = true ↔ o.leakfile = false ∧ Leaks o.game w v0 ∧ o.keepprt = false) ∧
      (r.exited = true ↔ o.leakfile = false ∧ Leaks o.game w v0 ∧ o.leaktest = true) := by
  obtain ⟨leak, occ, dist, h1, h2, -, -⟩ := fill_master o hw hv hs hocc
  obtain rfl := fillEnds_unique hr h1
  cases leak with
  | none =>
    have h2 : ¬ Leaks o.game w v0 := h2
    simp [finishFill, h2]
  | some x =>
    obtain ⟨e, line⟩ := x
    have hl : Leaks o.game w v0 := by
      obtain ⟨v, vs, h, hc, -⟩ := h2
      exact ⟨v, ⟨e, h⟩, line, vs, hc⟩
    by_cases hlf : o.leakfile = true
    · simp [finishFill, hlf, hl]
    · simp [finishFill, hlf, hl]

/-- **C51, no entity.** Without an entity in open space nothing is reported and nothing is filled. -/
theorem leak_no_entity (o : FillOptions) {w : Map} (hw : WellFormed w) (hocc : ¬ ∃ v, Occupied o.game w v) :
    FillEnds o w ⟨false, w.contents, fun _ => 0, fun _ => -1, none, false, o.leakfile, false, false⟩ := by
  have he : (findOccupied w.leafs (markOccupied o.game w.contents w.ents)).isEmpty = true := by
    rw [List.isEmpty_iff, List.eq_nil_iff_forall_not_mem]
    exact fun v h => hocc ⟨v, (mem_starts hw).1 h⟩
  refine ⟨0, fun fuel _ => ?_⟩
  unfold fillOutside
  simp only [he, if_true]

/-- Outside filling always ends without an error. -/
theorem fill_ends (o : FillOptions) {w : Map} (hw : WellFormed w) {v0 : Nat} (hv : VoidLeaf w v0)
    (hs : ¬ Seals o.game (w.contents v0)) : ∃ r, FillEnds o w r := by
  by_cases hocc : ∃ v, Occupied o.game w v
  · obtain ⟨_, _, _, h, -⟩ := fill_master o hw hv hs hocc
    exact ⟨_, h⟩
  · exact ⟨_, leak_no_entity o hw hocc⟩

/-- **C51, the whole rim.** If all open leafs of the rim are connected with each other, as in a map whose bounds have
room on all sides, a leak is reported exactly if an occupied leaf reaches any open leaf of the rim. -/
theorem leak_iff_rim (o : FillOptions) {w : Map} (hw : WellFormed w) {v0 : Nat} (hv : VoidLeaf w v0)
    (hs : ¬ Seals o.game (w.contents v0)) (hocc : ∃ v, Occupied o.game w v)
    (hrim : ∀ x, Rim w x → ¬ Seals o.game (w.contents x) → Reaches (Open o.game w.contents) w.portals x v0)
    {r : FillResult} (hr : FillEnds o w r) :
    r.leak ≠ none ↔ ∃ v x, Occupied o.game w v ∧ Rim w x ∧ ¬ Seals o.game (w.contents x) ∧
      Reaches (Open o.game w.contents) w.portals v x := by
  rw [(leak_iff o hw hv hs hocc hr).1]
  constructor
  · rintro ⟨v, h1, h2⟩
    obtain ⟨pre, p, post, g1, g2, -⟩ := hv
    exact ⟨v, v0, h1, ⟨p, by rw [g1]; simp, g2⟩, hs, h2⟩
  · rintro ⟨v, x, h1, h2, h3, h4⟩
    exact ⟨v, h1, reaches_trans h4 (hrim x h2 h3)⟩

/-- **C52.** The reported line starts in a leaf with the reported entity, crosses open portals one after the other, ends
in the void leaf, visits no leaf twice, and no occupied leaf has a shorter way to the void leaf. -/
theorem leak_line (o : FillOptions) {w : Map} (hw : WellFormed w) {v0 : Nat} (hv : VoidLeaf w v0)
    (hs : ¬ Seals o.game (w.contents v0)) {r : FillResult} (hr : FillEnds o w r) {e : Nat} {line : List Nat}
    (hl : r.leak = some (e, line)) :
    ∃ v vs, Occupies o.game w e v ∧ Chain (Open o.game w.contents) w.portals v line vs v0 ∧ vs.Nodup ∧
      ∀ u ks us, Occupied o.game w u → Chain (Open o.game w.contents) w.portals u ks us v0 →
        line.length ≤ ks.length := by
  by_cases hocc : ∃ v, Occupied o.game w v
  · obtain ⟨leak, occ, dist, h1, h2, -, -⟩ := fill_master o hw hv hs hocc
    obtain rfl := fillEnds_unique hr h1
    cases leak with
    | none => simp [finishFill] at hl
    | some x =>
      have : x = (e, line) := by
        by_cases hlf : o.leakfile = true
        · simpa [finishFill, hlf] using hl
        · simpa [finishFill, hlf] using hl
      subst this
      exact h2
  · obtain rfl := fillEnds_unique hr (leak_no_entity o hw hocc)
    simp at hl

/-- **C53.** The contents after outside filling. If nothing was filled, they are unchanged. Otherwise a leaf that an
entity reaches keeps its contents, a leaf that changed did not seal and became solid, and the leafs that become solid
are all open leafs that no entity reaches (filling from the inside) or that the void leaf reaches (filling from the
outside). -/
theorem fill_contents (o : FillOptions) {w : Map} (hw : WellFormed w) {v0 : Nat} (hv : VoidLeaf w v0)
    (hs : ¬ Seals o.game (w.contents v0)) {r : FillResult} (hr : FillEnds o w r) :
    (r.filled = false → r.contents = w.contents) ∧
    (∀ u v, Occupied o.game w u → Reaches (Open o.game w.contents) w.portals u v → r.contents v = w.contents v) ∧
    (∀ v, r.contents v ≠ w.contents v → v ∈ w.leafs ∧ ¬ Seals o.game (w.contents v) ∧ r.contents v = SOLID) ∧
    (r.filled = true → o.filltype ≠ .outside → ∀ v ∈ w.leafs, ¬ Seals o.game (w.contents v) →
      (∀ u, Occupied o.game w u → ¬ Reaches (Open o.game w.contents) w.portals u v) → r.contents v = SOLID) ∧
    (r.filled = true → o.filltype = .outside → ∀ v ∈ w.leafs, ¬ Seals o.game (w.contents v) →
      (Reaches (Open o.game w.contents) w.portals v0 v → r.contents v = SOLID) ∧
      (¬ Reaches (Open o.game w.contents) w.portals v0 v → r.contents v = w.contents v)) := by
  by_cases hocc : ∃ v, Occupied o.game w v
  · obtain ⟨leak, occ, dist, h1, h2, h3, h4⟩ := fill_master o hw hv hs hocc
    obtain rfl := fillEnds_unique hr h1
    cases leak with
    | some x =>
      have hc : (finishFill o w (o.filltype ≠ .outside) occ dist (some x)).contents = w.contents ∧
          (finishFill o w (o.filltype ≠ .outside) occ dist (some x)).filled = false := by
        by_cases hlf : o.leakfile = true
        · simp [finishFill, hlf]
        · simp [finishFill, hlf]
      rw [hc.1, hc.2]
      refine ⟨fun _ => rfl, fun _ _ _ _ => rfl, fun v h => absurd rfl h, by simp, by simp⟩
    | none =>
      have hnl : ¬ Leaks o.game w v0 := h2
      have hspec := outLeafs_spec (g := o.game) (inside := decide (o.filltype ≠ .outside)) (occ := occ) (dist := dist)
        w.leafs w.contents
      simp only [finishFill]
      by_cases hft : o.filltype = .outside
      · have hin : decide (o.filltype ≠ .outside) = false := by simp [hft]
        rw [hin] at hspec ⊢
        simp only [Bool.false_eq_true, if_false] at hspec
        have h4 := h4 hft
        refine ⟨by simp, ?_, ?_, fun _ h => absurd hft h, ?_⟩
        · intro u v hu hr'
          refine (hspec v).2 ?_
          rintro ⟨-, -, h⟩
          exact hnl ⟨u, hu, reaches_trans hr' (reaches_symm ((h4 v).1 h))⟩
        · intro v hne
          by_cases hc : v ∈ w.leafs ∧ ¬ Seals o.game (w.contents v) ∧ dist v ≠ -1
          · exact ⟨hc.1, hc.2.1, (hspec v).1 hc⟩
          · exact absurd ((hspec v).2 hc) hne
        · intro _ _ v hvl hvs
          exact ⟨fun h => (hspec v).1 ⟨hvl, hvs, (h4 v).2 h⟩, fun h => (hspec v).2 fun h' => h ((h4 v).1 h'.2.2)⟩
      · have hin : decide (o.filltype ≠ .outside) = true := by simp [hft]
        rw [hin] at hspec ⊢
        simp only [if_true] at hspec
        have h3 := h3 hft
        refine ⟨by simp, ?_, ?_, ?_, fun _ h => absurd h hft⟩
        · intro u v hu hr'
          refine (hspec v).2 ?_
          rintro ⟨-, -, h⟩
          exact (h3 v).1 h ⟨u, hu, hr'⟩
        · intro v hne
          by_cases hc : v ∈ w.leafs ∧ ¬ Seals o.game (w.contents v) ∧ occ v ≤ 0
          · exact ⟨hc.1, hc.2.1, (hspec v).1 hc⟩
          · exact absurd ((hspec v).2 hc) hne
        · intro _ _ v hvl hvs hun
          exact (hspec v).1 ⟨hvl, hvs, (h3 v).2 (by rintro ⟨u, hu, h⟩; exact hun u hu h)⟩
  · obtain rfl := fillEnds_unique hr (leak_no_entity o hw hocc)
    exact ⟨fun _ => rfl, fun _ _ _ _ => rfl, fun v h => absurd rfl h, by simp, by simp⟩

/-! ## C80 -/

/-- **C80.** Detail filling ends. If an entity is in open space, the leafs that become detail solid are exactly the
leafs that are neither solid nor sky and that no entity reaches without crossing solid, detail solid or sky; otherwise
nothing changes. -/
theorem fill_detail (g : Game) {w : Map} (hw : WellFormed w) :
    ∃ c occ N, (∀ fuel ≥ N, fillDetail g w fuel = some (c, occ)) ∧
      ((¬ ∃ v, Occupied g w v) → c = w.contents) ∧
      ((∃ v, Occupied g w v) → ∀ v,
        (v ∈ w.leafs ∧ ¬ Opaque g (w.contents v) ∧
          (∀ u, Occupied g w u → ¬ Reaches (OpenDetail g w.contents) w.portals u v) → c v = SOLID ||| DETAIL) ∧
        (¬ (v ∈ w.leafs ∧ ¬ Opaque g (w.contents v) ∧
          (∀ u, Occupied g w u → ¬ Reaches (OpenDetail g w.contents) w.portals u v)) → c v = w.contents v)) := by
  by_cases hocc : ∃ v, Occupied g w v
  · have hst := fun v => mem_starts (g := g) hw (v := v)
    have hne : (findOccupied w.leafs (markOccupied g w.contents w.ents)).isEmpty = false := by
      obtain ⟨v, h⟩ := hocc
      have := (mem_starts hw).2 h
      cases hl : findOccupied w.leafs (markOccupied g w.contents w.ents) with
      | nil => rw [hl] at this; simp at this
      | cons a l => rfl
    obtain ⟨m, N, h1, h2⟩ := floodOccupied_marks hw (fun p hp => ((detailPassable_iff g w.contents p).1 hp).1)
      (starts := findOccupied w.leafs (markOccupied g w.contents w.ents)) (fun s hs => (List.mem_filter.1 hs).1)
    have hnear := marks_nearest (detailPassable_iff g w.contents) h2
    refine ⟨detailLeafsToSolid g m w.leafs w.contents, m, N, fun fuel hf => ?_, fun h => absurd hocc h, fun _ v => ?_⟩
    · unfold fillDetail
      simp only [hne, Bool.false_eq_true, if_false, h1 fuel hf]
    · obtain ⟨s1, s2⟩ := detailLeafs_spec (g := g) (occ := m) w.leafs w.contents v
      have hd : g.detailSolid = SOLID ||| DETAIL := by cases g <;> decide
      rw [hd] at s1
      have hm : m v ≤ 0 ↔ ∀ u, Occupied g w u → ¬ Reaches (OpenDetail g w.contents) w.portals u v := by
        rcases hnear v with ⟨h, h'⟩ | ⟨h, d, hd, ⟨s, ks, vs, hs, hc, -⟩, -⟩
        · exact ⟨fun _ u hu => h' u ((hst u).2 hu), fun _ => by omega⟩
        · exact ⟨fun h => by omega, fun hn => absurd ⟨ks, vs, hc⟩ (hn s ((hst s).1 hs))⟩
      rw [hm] at s1 s2
      exact ⟨s1, s2⟩
  · have he : (findOccupied w.leafs (markOccupied g w.contents w.ents)).isEmpty = true := by
      rw [List.isEmpty_iff, List.eq_nil_iff_forall_not_mem]
      exact fun v h => hocc ⟨v, (mem_starts hw).1 h⟩
    refine ⟨w.contents, fun _ => 0, 0, fun fuel _ => ?_, fun _ => rfl, fun h => absurd h hocc⟩
    unfold fillDetail
    simp only [he, if_true]

/-! ## The hypotheses are met -/

/-- The portals of a tree (C78) satisfy the hypotheses on portals. -/
theorem wellFormed_of_tree {W : Type} (ops : Ops W) {t : PTree} (hn : (ids t).Nodup) {outside : Nat}
    (ho : outside ∉ ids t) (sides : List (Bool × W)) {out : List (BuildPortal W)}
    (hout : makeTreePortals ops false t (headnodePortals t.id outside sides) = .ok out)
    (contents : Nat → Contents) {ents : List Ent} (hents : ∀ e ∈ ents, e.leaf ∈ ends false t)
    (hrim : ∃ q ∈ out, q.onnode = none) :
    WellFormed ⟨toPortals out, outside, ends false t, contents, ents⟩ := by
  obtain ⟨out', h1, h2⟩ := tree_portals ops hn ho sides
  rw [hout] at h1
  cases h1
  have hnl : outside ∉ ends false t := fun h => ho (ends_sub h)
  have key : ∀ p ∈ toPortals out, ∃ q ∈ out, p = ⟨q.n0, q.n1, q.onnode⟩ := by
    intro p hp
    obtain ⟨q, hq, rfl⟩ := List.mem_map.1 hp
    exact ⟨q, hq, rfl⟩
  refine ⟨?_, ?_, ?_, hnl, ?_, hents⟩
  · intro p hp
    obtain ⟨q, hq, rfl⟩ := key p hp
    rcases h2 q hq with hj | ⟨-, ⟨a, b⟩ | ⟨a, b⟩⟩
    · exact (joins_ne hn hj).2.2
    · intro h
      simp only at h
      rw [h, b] at a
      exact hnl a
    · intro h
      simp only at h
      rw [← h, a] at b
      exact hnl b
  · intro p hp hon
    obtain ⟨q, hq, rfl⟩ := key p hp
    rcases h2 q hq with hj | ⟨h, -⟩
    · exact ⟨(joins_ne hn hj).1, (joins_ne hn hj).2.1⟩
    · exact absurd h hon
  · intro p hp hon
    obtain ⟨q, hq, rfl⟩ := key p hp
    rcases h2 q hq with ⟨i, _, _, _, h, _⟩ | ⟨-, ⟨a, b⟩ | ⟨a, b⟩⟩
    · rw [show q.onnode = none from hon] at h; cases h
    · exact Or.inr ⟨b, a⟩
    · exact Or.inl ⟨a, b⟩
  · obtain ⟨q, hq, hon⟩ := hrim
    have hm : (⟨q.n0, q.n1, q.onnode⟩ : Portal) ∈ toPortals out := List.mem_map.2 ⟨q, hq, rfl⟩
    rcases h2 q hq with ⟨i, _, _, _, h, _⟩ | ⟨-, ⟨a, b⟩ | ⟨a, b⟩⟩
    · rw [hon] at h; cases h
    · exact ⟨q.n0, _, hm, Or.inr ⟨b, rfl⟩⟩
    · exact ⟨q.n1, _, hm, Or.inl ⟨a, rfl⟩⟩

/-- A map with a room (leafs 1 and 2, with the player in leaf 2), a wall (leaf 3), a closed hole in the wall (leaf 4)
and the void (leaf 0); 9 is the outside. -/
def room (wall : Contents) : Map :=
  ⟨[⟨0, 9, none⟩, ⟨1, 3, some 10⟩, ⟨1, 2, some 11⟩, ⟨3, 0, some 12⟩, ⟨3, 4, some 13⟩], 9, [0, 1, 2, 3, 4],
    fun v => if v = 3 then wall else 0, [⟨true, false, 0⟩, ⟨true, false, 0⟩, ⟨false, true, 0⟩, ⟨false, false, 2⟩]⟩

/-- Quake, the given way of filling, no earlier leak. -/
def plain (t : FillType) : FillOptions := ⟨.q1, t, false, false, false⟩

theorem room_wf (wall : Contents) : WellFormed (room wall) :=
  ⟨by simp [room], by simp [room], by simp [room], by simp [room], ⟨0, ⟨0, 9, none⟩, by simp [room], Or.inr ⟨rfl, rfl⟩⟩,
    by simp [room]⟩

theorem room_void (wall : Contents) : VoidLeaf (room wall) 0 :=
  ⟨[], ⟨0, 9, none⟩, _, rfl, Or.inr ⟨rfl, rfl⟩, by simp [room]⟩

theorem room_open (wall : Contents) : ¬ Seals .q1 ((room wall).contents 0) := by
  show ¬ Seals .q1 (0 : Contents)
  decide +kernel

theorem room_occupied (wall : Contents) : Occupied .q1 (room wall) 2 :=
  ⟨3, ⟨false, false, 2⟩, rfl, by decide, rfl, rfl, rfl, by
    show ¬ Seals .q1 (0 : Contents)
    decide +kernel⟩

/-- A summary of a result for the examples. -/
def summary : Option (Outcome FillResult) → Option (Bool × List Contents × Option (Nat × List Nat))
  | some (.ok r) => some (r.filled, [0, 1, 2, 3, 4].map r.contents, r.leak)
  | _ => none

/-- Non-vacuity: with a structural wall the map is filled; with a detail wall it leaks through the wall, and both ways of
searching find the line of three portals; detail filling closes the hole in a detail wall. -/
example :
    summary (fillOutside (plain .inside) (room SOLID) 20) =
      some (true, [SOLID, 0, 0, SOLID, SOLID], none) ∧
    summary (fillOutside (plain .outside) (room SOLID) 20) =
      some (true, [SOLID, 0, 0, SOLID, 0], none) ∧
    summary (fillOutside (plain .auto) (room (SOLID ||| DETAIL)) 20) =
      some (false, [0, 0, 0, SOLID ||| DETAIL, 0], some (3, [2, 1, 3])) ∧
    summary (fillOutside (plain .outside) (room (SOLID ||| DETAIL)) 20) =
      some (false, [0, 0, 0, SOLID ||| DETAIL, 0], some (3, [2, 1, 3])) ∧
    (fillDetail .q1 (room (SOLID ||| DETAIL)) 20).map (fun r => [0, 1, 2, 3, 4].map r.1) =
      some [SOLID ||| DETAIL, 0, 0, SOLID ||| DETAIL, SOLID ||| DETAIL] :=
  ⟨by decide +kernel, by decide +kernel, by decide +kernel, by decide +kernel, by decide +kernel⟩

/-- The player of the room with a detail wall reaches the void. -/
example : Leaks .q1 (room (SOLID ||| DETAIL)) 0 :=
  ⟨2, room_occupied _, [2, 1, 3], [2, 1, 3, 0], .cons 2 2 1 0 ⟨1, 2, some 11⟩ _ _ rfl (by decide +kernel) (Or.inr ⟨rfl, rfl⟩)
    (.cons 1 1 3 0 ⟨1, 3, some 10⟩ _ _ rfl (by decide +kernel) (Or.inl ⟨rfl, rfl⟩)
      (.cons 3 3 0 0 ⟨3, 0, some 12⟩ _ _ rfl (by decide +kernel) (Or.inl ⟨rfl, rfl⟩) (.nil 0)))⟩

/-- Two leafs on the rim that are not connected: the player is in leaf 1, and leaf 0 is the void leaf. -/
def splitRim : Map :=
  ⟨[⟨1, 9, none⟩, ⟨0, 9, none⟩], 9, [0, 1], fun _ => 0, [⟨true, false, 0⟩, ⟨false, false, 1⟩]⟩

/-- **C51, the limit.** Only one leaf of the rim is looked at. When the rim is not connected, an entity in an open leaf
next to the outside is not reported: the map is filled. -/
theorem leak_missed : WellFormed splitRim ∧ VoidLeaf splitRim 0 ∧ ¬ Seals .q1 (splitRim.contents 0) ∧
    Occupied .q1 splitRim 1 ∧ Rim splitRim 1 ∧
    ∃ r, FillEnds (plain .inside) splitRim r ∧ r.leak = none ∧ r.filled = true := by
  have hw : WellFormed splitRim :=
    ⟨by decide, by decide, by decide, by decide, ⟨0, ⟨0, 9, none⟩, by decide, Or.inr ⟨rfl, rfl⟩⟩, by decide⟩
  have hv : VoidLeaf splitRim 0 := ⟨[⟨1, 9, none⟩], ⟨0, 9, none⟩, [], rfl, Or.inr ⟨rfl, rfl⟩, by simp⟩
  have h0 : ¬ Seals .q1 (0 : Contents) := by decide +kernel
  have ho : Occupied .q1 splitRim 1 := ⟨1, ⟨false, false, 1⟩, rfl, by decide, rfl, rfl, rfl, h0⟩
  obtain ⟨r, hr⟩ := fill_ends (plain .inside) hw hv h0
  have hl := leak_iff (plain .inside) hw hv h0 ⟨1, ho⟩ hr
  have hno : ¬ Leaks .q1 splitRim 0 := by
    rintro ⟨v, ⟨i, e, he, hi, -, hf, rfl, -⟩, ks, vs, hc⟩
    have : e.leaf = 1 := by
      have hi' : i < 2 := (List.getElem?_eq_some_iff.1 he).1
      have : i = 1 := by omega
      subst this
      simp only [splitRim, List.getElem?_cons_succ, List.getElem?_cons_zero, Option.some.injEq] at he
      subst he
      rfl
    rw [this] at hc
    cases hc with
    | cons _ k w _ p ks vs h1 h2 h3 h4 =>
      have hp : p ∈ splitRim.portals := List.mem_of_getElem? h1
      have : ∀ p ∈ splitRim.portals, p.onnode = none := by decide
      exact h2.1 (this p hp)
  exact ⟨hw, hv, h0, ho, ⟨⟨1, 9, none⟩, by decide, Or.inr ⟨rfl, rfl⟩⟩, r, hr,
    by by_contra h; exact hno (hl.1.1 h), hl.2.1.2 hno⟩

end Verif.Flood
