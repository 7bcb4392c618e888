import Mathlib.Tactic.NormNum
import Mathlib.Tactic.FinCases
import Mathlib.Data.Fintype.Basic
import Verif.Stream.Lemmas
import Verif.LightGrid.TreeLemmas

/-! Lemmas about the bytes of the lump. -/

namespace Verif.LightGrid

open Verif.Stream Verif.Light

/-- The bytes are read as the value, whatever follows them. -/
def Reads {α : Type} (p : List Byte → Option (α × List Byte)) (bs : List Byte) (a : α) : Prop :=
  ∀ rest, p (bs ++ rest) = some (a, rest)

theorem num_reads {k : Scalar} (hk : 0 < k.bytes) {v : Int} (h : k.Holds v) : Reads (num k) (k.encode v) v := by
  intro rest
  unfold num
  rw [if_pos (by rw [List.length_append, encode_length]; omega),
    List.take_left' (encode_length k v), List.drop_left' (encode_length k v), roundtrip k hk v h]

theorem times_reads {α : Type} {p : List Byte → Option (α × List Byte)} {bss : List (List Byte)} {as : List α}
    (h : List.Forall₂ (Reads p) bss as) : Reads (times p as.length) bss.flatten as := by
  induction h with
  | nil => intro rest; rfl
  | @cons bs a bss as h _ ih =>
    intro rest
    simp only [List.flatten_cons, List.append_assoc, List.length_cons, times]
    rw [h]
    show (times p as.length (bss.flatten ++ rest)).bind _ = _
    rw [ih rest]
    rfl

theorem each_reads {α β : Type} {p : List Byte → Option (β × List Byte)} {f : α → Outcome (List Byte)}
    {R : α → β → Prop} : ∀ {l : List α}, (∀ x ∈ l, ∃ bs y, f x = .ok bs ∧ Reads p bs y ∧ R x y) →
    ∃ bss ys, each f l = .ok bss ∧ List.Forall₂ (Reads p) bss ys ∧ List.Forall₂ R l ys
  | [], _ => ⟨[], [], rfl, .nil, .nil⟩
  | x :: l, h => by
    obtain ⟨bs, y, h1, h2, h3⟩ := h x (by simp)
    obtain ⟨bss, ys, k1, k2, k3⟩ := each_reads (l := l) (fun x hx => h x (List.mem_cons_of_mem _ hx))
    refine ⟨bs :: bss, y :: ys, ?_, .cons h2 k2, .cons h3 k3⟩
    unfold each
    rw [h1, k1]
    rfl

theorem i32_holds {v : Int} (h0 : -2 ^ 31 ≤ v) (h1 : v < 2 ^ 31) : i32.Holds v := by
  unfold Scalar.Holds Scalar.lo Scalar.hi
  norm_num at h0 h1 ⊢
  omega

theorem u8_holds {v : Int} (h0 : 0 ≤ v) (h1 : v ≤ 255) : u8.Holds v := by
  unfold Scalar.Holds Scalar.lo Scalar.hi
  norm_num
  omega

theorem u32_holds {v : Nat} (h1 : v < 2 ^ 32) : u32.Holds v := by
  unfold Scalar.Holds Scalar.lo Scalar.hi
  norm_num at h1 ⊢
  omega

theorem point_reads {p : P3} (hx : i32.Holds p.x) (hy : i32.Holds p.y) (hz : i32.Holds p.z) :
    Reads point (putP3 p) p := by
  intro rest
  unfold point putP3
  simp only [List.append_assoc]
  rw [num_reads (by decide) hx]
  simp only [Option.bind_eq_bind, Option.bind_some]
  rw [num_reads (by decide) hy]
  simp only [Option.bind_eq_bind, Option.bind_some]
  rw [num_reads (by decide) hz]
  rfl

theorem point_reads' {size p : P3} (hs : size.x < 2 ^ 31 ∧ size.y < 2 ^ 31 ∧ size.z < 2 ^ 31) (h : InGrid size p) :
    Reads point (putP3 p) p := by
  obtain ⟨⟨x0, x1⟩, ⟨y0, y1⟩, z0, z1⟩ := h
  exact point_reads (i32_holds (by omega) (by omega)) (i32_holds (by omega) (by omega))
    (i32_holds (by omega) (by omega))

/-! ### Rounding -/

theorem cround_near (q : ℚ) : |(cround q : ℚ) - q| ≤ 1 / 2 := by
  unfold cround
  rw [abs_le]
  split
  · have h1 := Int.floor_le (q + 1 / 2)
    have h2 := Int.lt_floor_add_one (q + 1 / 2)
    constructor <;> linarith
  · have h1 := Int.le_ceil (q - 1 / 2)
    have h2 := Int.ceil_lt_add_one (q - 1 / 2)
    constructor <;> linarith

theorem roundByte_ok {q : ℚ} (h : |q| ≤ 2 ^ 30) : ∃ b, roundByte q = .ok b ∧ Nearest b q := by
  have hn := abs_le.mp (cround_near q)
  have hq := abs_le.mp h
  have h0 : (-2 ^ 31 : Int) ≤ cround q := by
    have : ((-2 ^ 31 : Int) : ℚ) ≤ (cround q : ℚ) := by push_cast; norm_num at hq hn ⊢; linarith
    exact_mod_cast this
  have h1 : cround q < 2 ^ 31 := by
    have : (cround q : ℚ) < ((2 ^ 31 : Int) : ℚ) := by push_cast; norm_num at hq hn ⊢; linarith
    exact_mod_cast this
  refine ⟨max 0 (min (cround q) 255), ?_, ⟨by omega, by omega⟩, ?_⟩
  · unfold roundByte int
    rw [if_pos ⟨h0, h1⟩]
    rfl
  · intro c c0 c1
    have c0' : (0 : ℚ) ≤ (c : ℚ) := by exact_mod_cast c0
    have c1' : (c : ℚ) ≤ 255 := by exact_mod_cast c1
    by_cases a : cround q < 0
    · have e : max 0 (min (cround q) 255) = 0 := by omega
      have a' : (cround q : ℚ) ≤ -1 := by exact_mod_cast (show cround q ≤ -1 by omega)
      rw [e]
      push_cast
      rw [abs_of_nonneg (by linarith), abs_of_nonneg (by linarith)]
      linarith
    · by_cases a2 : 255 < cround q
      · have e : max 0 (min (cround q) 255) = 255 := by omega
        have a' : (256 : ℚ) ≤ (cround q : ℚ) := by exact_mod_cast (show 256 ≤ cround q by omega)
        rw [e]
        push_cast
        rw [abs_of_nonpos (by linarith), abs_of_nonpos (by linarith)]
        linarith
      · have e : max 0 (min (cround q) 255) = cround q := by omega
        rw [e]
        by_cases hc : c = cround q
        · rw [hc]
        · refine le_trans (cround_near q) ?_
          rcases Int.lt_or_gt_of_ne hc with hlt | hgt
          · have : (c : ℚ) ≤ (cround q : ℚ) - 1 := by exact_mod_cast (show c ≤ cround q - 1 by omega)
            rw [abs_of_nonpos (by linarith)]
            linarith
          · have : (cround q : ℚ) + 1 ≤ (c : ℚ) := by exact_mod_cast (show cround q + 1 ≤ c by omega)
            rw [abs_of_nonneg (by linarith)]
            linarith

/-! ### Cells -/

/-- The used samples can be written. -/
def FineSample (s : Sample) : Prop := (0 ≤ s.style ∧ s.style ≤ 255) ∧ ∀ i, |s.color i| ≤ 2 ^ 30

/-- At most four samples, and the used ones can be written. -/
def FineSamples (l : Samples) : Prop := l.length ≤ 4 ∧ ∀ s ∈ l, s.used = true → FineSample s

theorem putSample_ok {s : Sample} (h : FineSample s) :
    ∃ bs l, putSample s = .ok bs ∧ Reads lit bs l ∧ Shows s l := by
  obtain ⟨⟨s0, s1⟩, hc⟩ := h
  obtain ⟨r, hr, nr⟩ := roundByte_ok (hc 0)
  obtain ⟨g, hg, ng⟩ := roundByte_ok (hc 1)
  obtain ⟨b, hb, nb⟩ := roundByte_ok (hc 2)
  refine ⟨u8.encode s.style ++ u8.encode r ++ u8.encode g ++ u8.encode b, ⟨s.style, ![r, g, b]⟩, ?_, ?_, rfl, ?_⟩
  · unfold putSample
    rw [hr, hg, hb]
    rfl
  · intro rest
    unfold lit
    simp only [List.append_assoc]
    rw [num_reads (by decide) (u8_holds s0 s1)]
    simp only [Option.bind_eq_bind, Option.bind_some]
    rw [num_reads (by decide) (u8_holds nr.1.1 nr.1.2)]
    simp only [Option.bind_eq_bind, Option.bind_some]
    rw [num_reads (by decide) (u8_holds ng.1.1 ng.1.2)]
    simp only [Option.bind_eq_bind, Option.bind_some]
    rw [num_reads (by decide) (u8_holds nb.1.1 nb.1.2)]
    rfl
  · intro i
    fin_cases i
    · exact nr
    · exact ng
    · exact nb

theorem usedStyles_eq : ∀ l : Samples, usedStyles l = (l.takeWhile (·.used)).length
  | [] => rfl
  | s :: r => by
    unfold usedStyles
    rw [List.takeWhile_cons]
    cases h : s.used
    · simp
    · simp [usedStyles_eq r]

theorem take_used : ∀ l : Samples, l.take (usedStyles l) = l.takeWhile (·.used)
  | [] => rfl
  | s :: r => by
    unfold usedStyles
    rw [List.takeWhile_cons]
    cases h : s.used
    · simp
    · simp [take_used r]

theorem usedStyles_le (l : Samples) : usedStyles l ≤ l.length := by
  rw [usedStyles_eq]; exact (List.takeWhile_sublist _).length_le

theorem putCell_ok {d : Raw} (hd : Sized d) (hf : ∀ l ∈ d.result, FineSamples l) {p : P3} (hp : InGrid d.size p) :
    ∃ bs c, putCell d p = .ok bs ∧ Reads cell bs c ∧ Right (occ d p) (samplesAt d p) c := by
  unfold putCell
  rw [occludedAt_ok hd hp]
  simp only [Outcome.ok_bind]
  cases ho : occ d p
  · simp only [Bool.false_eq_true, if_false]
    rw [gridIndex_ok hp hd.small]
    simp only [Outcome.ok_bind]
    rw [samplesAt_ok hd hp]
    simp only [Outcome.ok_bind]
    obtain ⟨h4, hfs⟩ := hf _ (samplesAt_mem hd hp)
    have hu : usedStyles (samplesAt d p) ≤ 4 := le_trans (usedStyles_le _) h4
    obtain ⟨bss, ls, e1, e2, e3⟩ := each_reads (p := lit) (f := putSample) (R := Shows)
      (l := (samplesAt d p).take (usedStyles (samplesAt d p))) (by
        intro s hs
        rw [take_used] at hs
        have hus : s.used = true := List.all_eq_true.mp List.all_takeWhile s hs
        exact putSample_ok (hfs s ((List.takeWhile_sublist _).subset hs) hus))
    rw [e1]
    rw [take_used] at e3
    have hl : ls.length = usedStyles (samplesAt d p) := by rw [← e3.length_eq, usedStyles_eq]
    refine ⟨_, some ls, rfl, ?_, ?_⟩
    · intro rest
      unfold cell
      rw [List.append_assoc, num_reads (by decide) (u8_holds (by omega) (by omega))]
      show (if ((usedStyles (samplesAt d p) : Nat) : Int) = 255 then _ else _) = _
      rw [if_neg (by omega), Int.toNat_natCast, ← hl, times_reads e2]
      rfl
    · unfold Right
      simp only [Bool.false_eq_true, if_false]
      exact ⟨ls, rfl, e3⟩
  · simp only [if_true]
    refine ⟨_, none, rfl, ?_, rfl⟩
    intro rest
    unfold cell
    rw [num_reads (by decide) (u8_holds (by omega) (by omega))]
    rfl

/-- What is read for a leaf. -/
structure LeafRight (d : Raw) (b : Box) (l : LeafOf) : Prop where
  mins : l.mins = b.mins
  size : l.size = b.size
  cells : List.Forall₂ (fun p c => Right (occ d p) (samplesAt d p) c) (cells b) l.cells

theorem size_lt {d : Raw} (hd : Sized d) : d.size.x < 2 ^ 31 ∧ d.size.y < 2 ^ 31 ∧ d.size.z < 2 ^ 31 := by
  obtain ⟨px, py, pz, small, -, -⟩ := hd
  have hxy : 0 < d.size.x * d.size.y := Int.mul_pos px py
  have a0 : d.size.x * d.size.y * 1 ≤ d.size.x * d.size.y * d.size.z :=
    Int.mul_le_mul_of_nonneg_left (by omega) hxy.le
  have a1 : d.size.x * 1 ≤ d.size.x * d.size.y := Int.mul_le_mul_of_nonneg_left (by omega) px.le
  have a2 : 1 * d.size.y ≤ d.size.x * d.size.y := Int.mul_le_mul_of_nonneg_right (by omega) py.le
  have a3 : 1 * d.size.z ≤ d.size.x * d.size.y * d.size.z := Int.mul_le_mul_of_nonneg_right (by omega) pz.le
  refine ⟨by omega, by omega, by omega⟩

theorem inside_fat {size : P3} {b : Box} (hb : Inside size b) (hf : Fat b) :
    InGrid size b.mins ∧ b.size.x ≤ size.x ∧ b.size.y ≤ size.y ∧ b.size.z ≤ size.z := by
  obtain ⟨f1, f2, f3⟩ := hf
  have h1 := hb b.mins ⟨⟨by omega, by omega⟩, ⟨by omega, by omega⟩, by omega, by omega⟩
  have h2 := hb ⟨b.mins.x + b.size.x - 1, b.mins.y + b.size.y - 1, b.mins.z + b.size.z - 1⟩
    ⟨⟨by dsimp only; omega, by dsimp only; omega⟩, ⟨by dsimp only; omega, by dsimp only; omega⟩,
      by dsimp only; omega, by dsimp only; omega⟩
  refine ⟨h1, ?_⟩
  obtain ⟨⟨a1, a2⟩, ⟨a3, a4⟩, a5, a6⟩ := h1
  obtain ⟨⟨b1, b2⟩, ⟨b3, b4⟩, b5, b6⟩ := h2
  dsimp only at b1 b2 b3 b4 b5 b6
  omega

theorem putLeaf_ok {d : Raw} (hd : Sized d) (hf : ∀ l ∈ d.result, FineSamples l) {b : Box}
    (hb : Inside d.size b) (hfat : Fat b) :
    ∃ bs l, putLeaf d b = .ok bs ∧ Reads leaf bs l ∧ LeafRight d b l := by
  obtain ⟨bss, cs, e1, e2, e3⟩ := each_reads (p := cell) (f := putCell d)
    (R := fun p c => Right (occ d p) (samplesAt d p) c) (l := cells b)
    (fun p hp => putCell_ok hd hf (hb p (mem_cells.mp hp)))
  obtain ⟨hm, sx, sy, sz⟩ := inside_fat hb hfat
  obtain ⟨f1, f2, f3⟩ := hfat
  obtain ⟨l1, l2, l3⟩ := size_lt hd
  refine ⟨putP3 b.mins ++ putP3 b.size ++ bss.flatten, ⟨b.mins, b.size, cs⟩, ?_, ?_, rfl, rfl, e3⟩
  · unfold putLeaf
    rw [e1]
    rfl
  · intro rest
    unfold leaf
    simp only [List.append_assoc]
    rw [point_reads' (size_lt hd) hm]
    simp only [Option.bind_eq_bind, Option.bind_some]
    rw [point_reads (i32_holds (by omega) (by omega)) (i32_holds (by omega) (by omega))
      (i32_holds (by omega) (by omega))]
    simp only [Option.bind_eq_bind, Option.bind_some]
    rw [← cells_length f1.le f2.le f3.le, e3.length_eq, times_reads e2]
    rfl

/-- What is read for a node. -/
def NodeRight (n : Node) (m : NodeOf) : Prop := m.div = n.div ∧ m.children = n.children.map fun (c : Nat) => (c : Int)

theorem nums_reads {k : Scalar} (hk : 0 < k.bytes) : ∀ {l : List Nat}, (∀ v ∈ l, k.Holds v) →
    List.Forall₂ (Reads (num k)) (l.map fun (v : Nat) => k.encode v) (l.map fun (v : Nat) => (v : Int))
  | [], _ => .nil
  | v :: l, h => .cons (num_reads hk (h v (by simp))) (nums_reads hk fun v hv => h v (List.mem_cons_of_mem _ hv))

theorem node_reads {d : Raw} (hd : Sized d) {n : Node} (h8 : n.children.length = 8)
    (hc : ∀ c ∈ n.children, c < 2 ^ 32) (hdiv : InGrid d.size n.div) :
    Reads node (putNode n) ⟨n.div, n.children.map fun (c : Nat) => (c : Int)⟩ := by
  intro rest
  unfold node putNode
  rw [List.append_assoc, point_reads' (size_lt hd) hdiv]
  simp only [Option.bind_eq_bind, Option.bind_some]
  have := times_reads (nums_reads (k := u32) (by decide) (fun v hv => u32_holds (hc v hv))) rest
  rw [List.length_map, h8] at this
  rw [this]
  rfl

theorem floats_reads {l : List Nat} (hl : l.length = 3) (h : ∀ v ∈ l, v < 2 ^ 32) :
    Reads (times (num f32) 3) (putFloats l) (l.map fun (v : Nat) => (v : Int)) := by
  have := times_reads (nums_reads (k := f32) (by decide) (fun v hv => u32_holds (h v hv)))
  rw [List.length_map, hl] at this
  exact this

/-! ### Descending -/

theorem finds_of_tree {d : Raw} {ns : List Node} {ls : List Box} {g : Grid}
    (hn : List.Forall₂ NodeRight ns g.nodes) (hl : List.Forall₂ (LeafRight d) ls g.leafs)
    {v : Nat} {b : Box} (ht : Tree d ns ls v b) {p : P3} (hp : b.Has p) :
    ∃ c, Finds g v p c ∧ Right (occ d p) (samplesAt d p) c := by
  induction ht with
  | @occluded b h =>
    refine ⟨none, .occluded ?_, ?_⟩
    · rw [Int.toNat_natCast]; decide
    · rw [h p hp]; rfl
  | @leaf k b h hk =>
    have hlen : k < ls.length := by
      by_contra hc; rw [List.getElem?_eq_none (by omega)] at h; cases h
    have hlen' : k < g.leafs.length := by rw [← hl.length_eq]; exact hlen
    have hr := hl.get hlen hlen'
    simp only [List.get_eq_getElem] at hr
    rw [List.getElem?_eq_getElem hlen, Option.some.injEq] at h
    rw [h] at hr
    obtain ⟨hm, hs, hc⟩ := hr
    have hg := cells_get hp
    have hi : ((p.x - b.mins.x) + b.size.x * ((p.y - b.mins.y) + b.size.y * (p.z - b.mins.z))).toNat
        < (cells b).length := by
      by_contra hc; rw [List.getElem?_eq_none (by omega)] at hg; cases hg
    have hi' := hi
    rw [hc.length_eq] at hi'
    have hcc := hc.get hi hi'
    simp only [List.get_eq_getElem] at hcc
    rw [List.getElem?_eq_getElem hi, Option.some.injEq] at hg
    rw [hg] at hcc
    refine ⟨_, .leaf (l := g.leafs[k]) (c := g.leafs[k].cells[_]) ?_ ?_ ?_ ?_ ?_ ?_ ?_, hcc⟩
    · rw [Int.toNat_natCast, Nat.testBit_eq_decide_div_mod_eq]; simp only [decide_eq_true_eq]; omega
    · rw [Int.toNat_natCast, Nat.testBit_eq_decide_div_mod_eq]; simp only [decide_eq_true_eq]; omega
    · rw [Int.toNat_natCast, show (2 ^ 31 + k) % 2 ^ 30 = k by omega, List.getElem?_eq_getElem hlen']
    · rw [hm, hs]; exact hp.1
    · rw [hm, hs]; exact hp.2.1
    · rw [hm, hs]; exact hp.2.2
    · rw [hm, hs, List.getElem?_eq_getElem hi']
  | @node k b div ch h hk h8 hc ih =>
    have hlen : k < ns.length := by
      by_contra hc; rw [List.getElem?_eq_none (by omega)] at h; cases h
    have hlen' : k < g.nodes.length := by rw [← hn.length_eq]; exact hlen
    have hr := hn.get hlen hlen'
    simp only [List.get_eq_getElem] at hr
    rw [List.getElem?_eq_getElem hlen, Option.some.injEq] at h
    rw [h] at hr
    obtain ⟨hdv, hch⟩ := hr
    have hside : side div p < ch.length := by rw [h8]; exact side_lt _ _
    obtain ⟨c, f1, f2⟩ := ih (side div p) ch[side div p] (List.getElem?_eq_getElem hside)
      (octant_side b div p hp)
    refine ⟨c, .node (n := g.nodes[k]) (w := (ch[side div p] : Nat)) ?_ ?_ ?_ ?_ f1, f2⟩
    · rw [Int.toNat_natCast, Nat.testBit_eq_decide_div_mod_eq]; simp only [decide_eq_true_eq]; omega
    · rw [Int.toNat_natCast, Nat.testBit_eq_decide_div_mod_eq]; simp only [decide_eq_true_eq]; omega
    · rw [Int.toNat_natCast, List.getElem?_eq_getElem hlen']
    · simp only [hdv, hch, List.getElem?_map, List.getElem?_eq_getElem hside, Option.map_some]

end Verif.LightGrid
