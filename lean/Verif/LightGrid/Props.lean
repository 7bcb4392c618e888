import Verif.LightGrid.ByteLemmas

/-!
Properties of the light grid: the lump gives back what was computed (C121), the leafs of the
octree divide the grid (C122).
-/

namespace Verif.LightGrid

open Verif.Stream Verif.Light

/-- A grid says at most one thing about a point. -/
theorem finds_unique {g : Grid} {v : Int} {p : P3} {c c' : Option (List Lit)} (h : Finds g v p c)
    (h' : Finds g v p c') : c = c' := by
  induction h with
  | occluded h =>
    cases h' with
    | occluded _ => rfl
    | leaf h30 => exact absurd h h30
    | node h30 => exact absurd h h30
  | leaf h30 h31 hl hx hy hz hc =>
    cases h' with
    | occluded h => exact absurd h h30
    | leaf _ _ hl' _ _ _ hc' =>
      rw [hl, Option.some.injEq] at hl'
      subst hl'
      rw [hc, Option.some.injEq] at hc'
      exact hc'
    | node _ h => exact absurd h31 h
  | node h30 h31 hn hw _ ih =>
    cases h' with
    | occluded h => exact absurd h h30
    | leaf _ h => exact absurd h h31
    | node _ _ hn' hw' next =>
      rw [hn, Option.some.injEq] at hn'
      subst hn'
      rw [hw, Option.some.injEq] at hw'
      subst hw'
      exact ih next

/-- The position of a grid point in the arrays of the program, with the first coordinate
varying fastest. -/
def place (size p : P3) : Nat := (p.x + size.x * (p.y + size.y * p.z)).toNat

theorem place_eq (size p : P3) : place size p = (idx size p).toNat := by
  unfold place idx
  congr 1
  ring

/-- The header can be written: three floats each, and less than 256 styles. -/
structure FineHeader (h : Header) : Prop where
  ndist : h.dist.length = 3
  nmins : h.mins.length = 3
  dist : ∀ v ∈ h.dist, v < 2 ^ 32
  mins : ∀ v ∈ h.mins, v < 2 ^ 32
  styles : h.numStyles < 256

/-- The grid that is read from the lump belongs to the computed data. -/
structure Tells (h : Header) (d : Raw) (g : Grid) : Prop where
  dist : g.dist = h.dist.map fun (v : Nat) => (v : Int)
  size : g.size = d.size
  mins : g.mins = h.mins.map fun (v : Nat) => (v : Int)
  styles : g.numStyles = h.numStyles
  points : ∀ p, InGrid d.size p → ∃ o s c, d.occlusion[place d.size p]? = some o ∧
    d.result[place d.size p]? = some s ∧ (∀ c', Finds g g.root p c' ↔ c' = c) ∧ Right o s c

theorem sum_forall₂ {α β : Type} {f : α → Int} {g : β → Int} {l : List α} {m : List β}
    (h : List.Forall₂ (fun a b => f a = g b) l m) : (l.map f).sum = (m.map g).sum := by
  induction h with
  | nil => rfl
  | cons h _ ih => rw [List.map_cons, List.map_cons, List.sum_cons, List.sum_cons, h, ih]

/-- The lump and what is read from it. -/
theorem lump_ok {h : Header} {d : Raw} (hh : FineHeader h) (hd : Sized d) (hf : ∀ l ∈ d.result, FineSamples l) :
    ∃ bs v st ls, makeOctreeLump h d = .ok bs ∧ buildRoot d = .ok (v, st) ∧
      Adds d (2 * 8 ^ maxDepth) [⟨⟨0, 0, 0⟩, d.size⟩] {} [v] st ∧ List.Forall₂ (LeafRight d) st.leafs ls ∧
      lump bs = some (⟨h.dist.map fun (v : Nat) => (v : Int), d.size, h.mins.map fun (v : Nat) => (v : Int),
        h.numStyles, v, st.nodes.map fun n => ⟨n.div, n.children.map fun (c : Nat) => (c : Int)⟩, ls⟩, []) := by
  obtain ⟨v, st, hv, a⟩ := buildRoot_adds hd
  obtain ⟨nn, en, ln, cn⟩ := a.nodes
  obtain ⟨nl, el, ll, il, dl, vl, sl⟩ := a.leafs
  rw [List.nil_append] at en el
  have hin : ∀ b ∈ st.leafs, Inside d.size b ∧ Fat b := by
    intro b hb
    rw [el] at hb
    obtain ⟨hfat, c, hc, hp⟩ := il b hb
    rw [List.mem_singleton] at hc
    subst hc
    refine ⟨fun p h => ?_, hfat⟩
    obtain ⟨hx, hy, hz⟩ := hp p h
    simp only [Int.zero_add] at hx hy hz
    exact ⟨hx, hy, hz⟩
  obtain ⟨bss, ls, e1, e2, e3⟩ := each_reads (p := leaf) (f := putLeaf d) (R := LeafRight d) (l := st.leafs)
    (fun b hb => putLeaf_ok hd hf (hin b hb).1 (hin b hb).2)
  have hvt : v < 2 ^ 32 := by
    cases a.trees with
    | cons t _ => exact t.lt
  have hmax : 2 * 8 ^ maxDepth = 65536 := by simp [maxDepth]
  rw [hmax] at ln ll
  have hnl : st.nodes.length < 65536 := by rw [en]; exact ln
  have hll : st.leafs.length < 65536 := by rw [el]; exact ll
  have hnodes : List.Forall₂ (Reads node) (st.nodes.map putNode)
      (st.nodes.map fun n => (⟨n.div, n.children.map fun (c : Nat) => (c : Int)⟩ : NodeOf)) := by
    rw [List.forall₂_map_left_iff, List.forall₂_map_right_iff, List.forall₂_same]
    intro n hn
    rw [en] at hn
    obtain ⟨h8, hc, hg⟩ := cn n hn
    exact node_reads hd h8 hc hg
  have hsz := size_lt hd
  refine ⟨_, v, st, ls, by unfold makeOctreeLump; rw [hv]; simp only [Outcome.ok_bind]; rw [e1]; rfl, hv, a, e3, ?_⟩
  unfold lump
  have px := hd.px
  have py := hd.py
  have pz := hd.pz
  simp only [List.append_assoc]
  rw [floats_reads hh.ndist hh.dist]
  simp only [Option.bind_eq_bind, Option.bind_some]
  rw [point_reads (i32_holds (by omega) (by omega)) (i32_holds (by omega) (by omega))
    (i32_holds (by omega) (by omega))]
  simp only [Option.bind_some]
  rw [floats_reads hh.nmins hh.mins]
  simp only [Option.bind_some]
  rw [num_reads (by decide) (u8_holds (by omega) (by have := hh.styles; omega))]
  simp only [Option.bind_some]
  rw [num_reads (by decide) (u32_holds hvt)]
  simp only [Option.bind_some]
  rw [num_reads (by decide) (u32_holds (by omega)), Nat.mod_eq_of_lt (by omega)]
  simp only [Option.bind_some, Int.toNat_natCast]
  have hnr := times_reads hnodes
  rw [List.length_map] at hnr
  rw [hnr]
  simp only [Option.bind_some]
  rw [num_reads (by decide) (u32_holds (by omega)), Nat.mod_eq_of_lt (by omega)]
  simp only [Option.bind_some, Int.toNat_natCast]
  have hlr := times_reads e2 []
  rw [← e3.length_eq, List.append_nil] at hlr
  rw [hlr]
  rfl

theorem nodeRight_map (ns : List Node) :
    List.Forall₂ NodeRight ns (ns.map fun n => (⟨n.div, n.children.map fun (c : Nat) => (c : Int)⟩ : NodeOf)) := by
  rw [List.forall₂_map_right_iff, List.forall₂_same]
  intro n _
  exact ⟨rfl, rfl⟩

/-- C121. For every grid and all computed data, the lump is written, a reader of the lump reads
all of it, and it finds for every grid point what was computed for that point: that it is
occluded, or else the styles with their colours rounded to bytes, and nothing else. -/
theorem octree_lump_tells {h : Header} {d : Raw} (hh : FineHeader h) (hd : Sized d)
    (hf : ∀ l ∈ d.result, FineSamples l) :
    ∃ bs g, makeOctreeLump h d = .ok bs ∧ lump bs = some (g, []) ∧ Tells h d g := by
  obtain ⟨bs, v, st, ls, h1, h2, a, h3, h4⟩ := lump_ok hh hd hf
  refine ⟨bs, _, h1, h4, rfl, rfl, rfl, rfl, ?_⟩
  intro p hp
  have ht : Tree d st.nodes st.leafs v ⟨⟨0, 0, 0⟩, d.size⟩ := by
    cases a.trees with
    | cons t _ => exact t
  have hhas : (⟨⟨0, 0, 0⟩, d.size⟩ : Box).Has p := by
    obtain ⟨hx, hy, hz⟩ := hp
    simp only [Box.Has, Int.zero_add]
    exact ⟨hx, hy, hz⟩
  obtain ⟨c, f1, f2⟩ := finds_of_tree
    (g := ⟨h.dist.map fun (v : Nat) => (v : Int), d.size, h.mins.map fun (v : Nat) => (v : Int), h.numStyles, v,
      st.nodes.map fun n => ⟨n.div, n.children.map fun (c : Nat) => (c : Int)⟩, ls⟩)
    (nodeRight_map st.nodes) h3 ht hhas
  have hb := idx_bounds hp
  have lo : (idx d.size p).toNat < d.occlusion.length := by rw [hd.nocc]; omega
  have lr : (idx d.size p).toNat < d.result.length := by rw [hd.nres]; omega
  refine ⟨occ d p, samplesAt d p, c, ?_, ?_, fun c' => ⟨fun h' => finds_unique h' f1, ?_⟩, f2⟩
  · rw [place_eq]; unfold occ; rw [List.getD_eq_getElem?_getD, List.getElem?_eq_getElem lo]; rfl
  · rw [place_eq]; unfold samplesAt; rw [List.getD_eq_getElem?_getD, List.getElem?_eq_getElem lr]; rfl
  · rintro rfl; exact f1

/-- The point lies in the leaf. -/
def LeafOf.Has (l : LeafOf) (p : P3) : Prop :=
  (l.mins.x ≤ p.x ∧ p.x < l.mins.x + l.size.x) ∧ (l.mins.y ≤ p.y ∧ p.y < l.mins.y + l.size.y) ∧
    (l.mins.z ≤ p.z ∧ p.z < l.mins.z + l.size.z)

/-- C122. The leafs in the lump divide the grid: each of them holds at least one grid point, all
their points are points of the grid, a sample is stored for each point of a leaf, no point is
in two leafs, and every point that is not occluded is in a leaf. The number of stored points
and the number of points that are left out, as the tool prints them, add up to the number of
points of the grid. -/
theorem octree_leafs_divide {h : Header} {d : Raw} (hh : FineHeader h) (hd : Sized d)
    (hf : ∀ l ∈ d.result, FineSamples l) :
    ∃ bs g v st, makeOctreeLump h d = .ok bs ∧ lump bs = some (g, []) ∧ buildRoot d = .ok (v, st) ∧
      (∀ l ∈ g.leafs, (∃ p, l.Has p) ∧ (∀ p, l.Has p → InGrid d.size p) ∧
        (l.cells.length : Int) = l.size.x * l.size.y * l.size.z) ∧
      g.leafs.Pairwise (fun l l' => ∀ p, ¬(l.Has p ∧ l'.Has p)) ∧
      (∀ p, InGrid d.size p → d.occlusion[place d.size p]? = some false → ∃ l ∈ g.leafs, l.Has p) ∧
      storedCells st = (g.leafs.map fun l => (l.cells.length : Int)).sum ∧
      storedCells st + st.occludedCells = d.size.x * d.size.y * d.size.z := by
  obtain ⟨bs, v, st, ls, h1, h2, a, h3, h4⟩ := lump_ok hh hd hf
  obtain ⟨nl, el, ll, il, dl, vl, sl⟩ := a.leafs
  rw [List.nil_append] at el
  have hlen : ∀ b l, b ∈ st.leafs → LeafRight d b l → (l.cells.length : Int) = volume b.size := by
    intro b l hb hl
    rw [el] at hb
    obtain ⟨⟨f1, f2, f3⟩, -⟩ := il b hb
    rw [← hl.cells.length_eq, cells_length f1.le f2.le f3.le]
    unfold volume
    exact Int.toNat_of_nonneg (Int.mul_nonneg (Int.mul_nonneg f1.le f2.le) f3.le)
  have hhas : ∀ b l, LeafRight d b l → ∀ p, l.Has p ↔ b.Has p := by
    intro b l hl p
    unfold LeafOf.Has Box.Has
    rw [hl.mins, hl.size]
  have hmem : ∀ l ∈ ls, ∃ b ∈ st.leafs, LeafRight d b l := by
    intro l hl
    obtain ⟨k, hk, rfl⟩ := List.mem_iff_getElem.mp hl
    have hk' : k < st.leafs.length := by rw [h3.length_eq]; exact hk
    exact ⟨st.leafs[k], List.getElem_mem hk', by simpa using h3.get hk' hk⟩
  refine ⟨bs, _, v, st, h1, h4, h2, ?_, ?_, ?_, ?_, ?_⟩
  · intro l hl
    obtain ⟨b, hb, hr⟩ := hmem l hl
    have hb' := hb
    rw [el] at hb'
    obtain ⟨⟨f1, f2, f3⟩, c, hc, hp⟩ := il b hb'
    rw [List.mem_singleton] at hc
    subst hc
    refine ⟨⟨b.mins, (hhas b l hr _).mpr ⟨⟨by omega, by omega⟩, ⟨by omega, by omega⟩, by omega, by omega⟩⟩, ?_, ?_⟩
    · intro p h
      obtain ⟨hx, hy, hz⟩ := hp p ((hhas b l hr p).mp h)
      simp only [Int.zero_add] at hx hy hz
      exact ⟨hx, hy, hz⟩
    · rw [hlen b l hb hr, hr.size]
      rfl
  · have hpw : st.leafs.Pairwise Disj := by rw [el]; exact dl
    rw [List.pairwise_iff_getElem] at hpw ⊢
    intro i j hi hj hij p hp
    have hi' : i < st.leafs.length := by rw [h3.length_eq]; exact hi
    have hj' : j < st.leafs.length := by rw [h3.length_eq]; exact hj
    have ri := h3.get hi' hi
    have rj := h3.get hj' hj
    simp only [List.get_eq_getElem] at ri rj
    exact hpw i j hi' hj' hij p ((hhas _ _ ri p).mp hp.1) ((hhas _ _ rj p).mp hp.2)
  · intro p hp ho
    have hhp : (⟨⟨0, 0, 0⟩, d.size⟩ : Box).Has p := by
      obtain ⟨hx, hy, hz⟩ := hp
      simp only [Box.Has, Int.zero_add]
      exact ⟨hx, hy, hz⟩
    rcases vl _ (by simp) p hhp with h | ⟨b, hb, hbp⟩
    · unfold occ at h
      rw [← place_eq, List.getD_eq_getElem?_getD, ho] at h
      exact absurd h (by decide)
    · rw [← el] at hb
      obtain ⟨k, hk, rfl⟩ := List.mem_iff_getElem.mp hb
      have hk' : k < ls.length := by rw [← h3.length_eq]; exact hk
      have rk := h3.get hk hk'
      simp only [List.get_eq_getElem] at rk
      exact ⟨ls[k], List.getElem_mem hk', (hhas _ _ rk p).mpr hbp⟩
  · unfold storedCells
    have : List.Forall₂ (fun (b : Box) (l : LeafOf) => volume b.size = (l.cells.length : Int)) st.leafs ls := by
      rw [List.forall₂_iff_get] at h3 ⊢
      refine ⟨h3.1, fun i hi hi' => ?_⟩
      exact (hlen _ _ (List.getElem_mem hi) (h3.2 i hi hi')).symm
    exact sum_forall₂ this
  · unfold storedCells
    rw [el]
    simp only [List.map_cons, List.map_nil, List.sum_cons, List.sum_nil] at sl
    unfold volume at sl ⊢
    omega

end Verif.LightGrid
