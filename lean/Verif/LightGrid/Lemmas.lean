import Mathlib.Tactic.Ring
import Mathlib.Tactic.Linarith
import Verif.Light.ImageLemmas
import Verif.LightGrid.Spec

/-! Lemmas about grid points, boxes and their order. -/

namespace Verif.LightGrid

open Verif.Stream Verif.Light

/-- The arrays of the grid have one element for each grid point, and `int` can count them. -/
structure Sized (d : Raw) : Prop where
  px : 0 < d.size.x
  py : 0 < d.size.y
  pz : 0 < d.size.z
  small : d.size.x * d.size.y * d.size.z < 2 ^ 31
  nres : d.result.length = (d.size.x * d.size.y * d.size.z).toNat
  nocc : d.occlusion.length = (d.size.x * d.size.y * d.size.z).toNat

/-- The position of a grid point in the arrays. -/
def idx (size p : P3) : Int := size.x * size.y * p.z + size.x * p.y + p.x

theorem idx_bounds {size p : P3} (h : InGrid size p) :
    0 ≤ idx size p ∧ idx size p < size.x * size.y * size.z := by
  obtain ⟨⟨x0, x1⟩, ⟨y0, y1⟩, z0, z1⟩ := h
  unfold idx
  have hx : 0 < size.x := by omega
  have hy : 0 < size.y := by omega
  have hxy : 0 < size.x * size.y := Int.mul_pos hx hy
  have a1 : 0 ≤ size.x * size.y * p.z := Int.mul_nonneg hxy.le z0
  have a2 : 0 ≤ size.x * p.y := Int.mul_nonneg hx.le y0
  have a3 : size.x * (p.y + 1) ≤ size.x * size.y := Int.mul_le_mul_of_nonneg_left (by omega) hx.le
  have a4 : size.x * size.y * (p.z + 1) ≤ size.x * size.y * size.z :=
    Int.mul_le_mul_of_nonneg_left (by omega) hxy.le
  have e3 : size.x * (p.y + 1) = size.x * p.y + size.x := by ring
  have e4 : size.x * size.y * (p.z + 1) = size.x * size.y * p.z + size.x * size.y := by ring
  constructor <;> omega

theorem int_ok {v : Int} (h0 : 0 ≤ v) (h1 : v < 2 ^ 31) : int v = .ok v := by
  unfold int; rw [if_pos ⟨by omega, h1⟩]

theorem gridIndex_ok {size p : P3} (h : InGrid size p) (hs : size.x * size.y * size.z < 2 ^ 31) :
    gridIndex size p = .ok (idx size p) := by
  have hb := idx_bounds h
  obtain ⟨⟨x0, x1⟩, ⟨y0, y1⟩, z0, z1⟩ := h
  have hx : 0 < size.x := by omega
  have hy : 0 < size.y := by omega
  have hxy : 0 < size.x * size.y := Int.mul_pos hx hy
  have a0 : size.x * size.y * 1 ≤ size.x * size.y * size.z :=
    Int.mul_le_mul_of_nonneg_left (by omega) hxy.le
  have a1 : 0 ≤ size.x * size.y * p.z := Int.mul_nonneg hxy.le z0
  have a2 : 0 ≤ size.x * p.y := Int.mul_nonneg hx.le y0
  unfold idx at hb
  unfold gridIndex
  rw [int_ok (by omega) (by omega)]
  simp only [Outcome.ok_bind]
  rw [int_ok (by omega) (by omega)]
  simp only [Outcome.ok_bind]
  rw [int_ok (by omega) (by omega)]
  simp only [Outcome.ok_bind]
  rw [int_ok (by omega) (by omega)]
  simp only [Outcome.ok_bind]
  rw [int_ok (by omega) (by omega)]
  rfl

/-- What the arrays say about a grid point. -/
def occ (d : Raw) (p : P3) : Bool := d.occlusion.getD (idx d.size p).toNat false
def samplesAt (d : Raw) (p : P3) : Samples := d.result.getD (idx d.size p).toNat []

theorem at_ok {α : Type} {l : List α} {i : Int} (x : α) (h0 : 0 ≤ i) (h1 : i.toNat < l.length) :
    at' l i = .ok (l.getD i.toNat x) := by
  unfold at'
  rw [if_neg (by omega)]
  unfold Outcome.readAt
  rw [List.getElem?_eq_getElem h1, List.getD_eq_getElem?_getD, List.getElem?_eq_getElem h1]
  rfl

theorem occludedAt_ok {d : Raw} (hd : Sized d) {p : P3} (h : InGrid d.size p) :
    occludedAt d p = .ok (occ d p) := by
  have hb := idx_bounds h
  unfold occludedAt
  rw [gridIndex_ok h hd.small]
  exact at_ok false hb.1 (by rw [hd.nocc]; omega)

theorem samplesAt_ok {d : Raw} (hd : Sized d) {p : P3} (h : InGrid d.size p) :
    at' d.result (idx d.size p) = .ok (samplesAt d p) := by
  have hb := idx_bounds h
  exact at_ok [] hb.1 (by rw [hd.nres]; omega)

theorem samplesAt_mem {d : Raw} (hd : Sized d) {p : P3} (h : InGrid d.size p) :
    samplesAt d p ∈ d.result := by
  have hb := idx_bounds h
  unfold samplesAt
  have h1 : (idx d.size p).toNat < d.result.length := by rw [hd.nres]; omega
  rw [List.getD_eq_getElem?_getD, List.getElem?_eq_getElem h1]
  exact List.getElem_mem h1

/-! ### Boxes -/

/-- The point is in the box. -/
def Box.Has (b : Box) (p : P3) : Prop :=
  (b.mins.x ≤ p.x ∧ p.x < b.mins.x + b.size.x) ∧ (b.mins.y ≤ p.y ∧ p.y < b.mins.y + b.size.y) ∧
    (b.mins.z ≤ p.z ∧ p.z < b.mins.z + b.size.z)

theorem mem_span {m s v : Int} : v ∈ span m s ↔ m ≤ v ∧ v < m + s := by
  unfold span
  simp only [List.mem_map, List.mem_range]
  constructor
  · rintro ⟨k, hk, rfl⟩; omega
  · rintro ⟨h0, h1⟩
    exact ⟨(v - m).toNat, by omega, by omega⟩

@[simp] theorem span_length (m s : Int) : (span m s).length = s.toNat := by simp [span]

theorem span_get {m s v : Int} (h0 : m ≤ v) (h1 : v < m + s) : (span m s)[(v - m).toNat]? = some v := by
  unfold span
  rw [List.getElem?_map, List.getElem?_range (by omega)]
  simp only [Option.map_some, Option.some.injEq]
  omega

theorem mem_cells {b : Box} {p : P3} : p ∈ cells b ↔ b.Has p := by
  unfold cells Box.Has
  simp only [List.mem_flatMap, List.mem_map, mem_span]
  constructor
  · rintro ⟨z, hz, y, hy, x, hx, rfl⟩; exact ⟨hx, hy, hz⟩
  · rintro ⟨hx, hy, hz⟩; exact ⟨p.z, hz, p.y, hy, p.x, hx, rfl⟩

theorem flatMap_const_length {α β : Type} {f : α → List β} {m : Nat} : ∀ {l : List α},
    (∀ a ∈ l, (f a).length = m) → (l.flatMap f).length = l.length * m
  | [], _ => by simp
  | a :: l, h => by
    rw [List.flatMap_cons, List.length_append, h a (by simp),
      flatMap_const_length (fun a ha => h a (List.mem_cons_of_mem _ ha)), List.length_cons]
    ring

theorem flatMap_get {α β : Type} {f : α → List β} {m j : Nat} (hj : j < m) : ∀ {l : List α} {k : Nat},
    (∀ a ∈ l, (f a).length = m) → (l.flatMap f)[k * m + j]? = l[k]?.bind fun a => (f a)[j]?
  | [], k, _ => by simp
  | a :: l, 0, h => by
    rw [List.flatMap_cons, List.getElem?_append_left (by rw [h a (by simp)]; omega)]
    simp
  | a :: l, k + 1, h => by
    rw [List.flatMap_cons, List.getElem?_append_right (by rw [h a (by simp), Nat.add_mul]; omega), h a (by simp)]
    have e : (k + 1) * m + j - m = k * m + j := by rw [Nat.add_mul]; omega
    rw [e, flatMap_get hj (fun a ha => h a (List.mem_cons_of_mem _ ha))]
    simp

theorem cells_length {b : Box} (hx : 0 ≤ b.size.x) (hy : 0 ≤ b.size.y) (hz : 0 ≤ b.size.z) :
    (cells b).length = (b.size.x * b.size.y * b.size.z).toNat := by
  unfold cells
  rw [flatMap_const_length (m := b.size.y.toNat * b.size.x.toNat)
    (fun z _ => by rw [flatMap_const_length (m := b.size.x.toNat) (fun y _ => by simp)]; simp)]
  simp only [span_length]
  obtain ⟨a, ha⟩ := Int.eq_ofNat_of_zero_le hx
  obtain ⟨b', hb⟩ := Int.eq_ofNat_of_zero_le hy
  obtain ⟨c, hc⟩ := Int.eq_ofNat_of_zero_le hz
  rw [ha, hb, hc]
  simp only [Int.toNat_natCast]
  rw [show ((a : Int) * b' * c) = ((a * b' * c : Nat) : Int) by push_cast; rfl, Int.toNat_natCast]
  ring

theorem cells_get {b : Box} {p : P3} (h : b.Has p) :
    (cells b)[((p.x - b.mins.x) + b.size.x * ((p.y - b.mins.y) + b.size.y * (p.z - b.mins.z))).toNat]? = some p := by
  obtain ⟨⟨x0, x1⟩, ⟨y0, y1⟩, z0, z1⟩ := h
  obtain ⟨a, ha⟩ := Int.eq_ofNat_of_zero_le (show 0 ≤ p.x - b.mins.x by omega)
  obtain ⟨b', hb⟩ := Int.eq_ofNat_of_zero_le (show 0 ≤ p.y - b.mins.y by omega)
  obtain ⟨c, hc⟩ := Int.eq_ofNat_of_zero_le (show 0 ≤ p.z - b.mins.z by omega)
  obtain ⟨sx, hsx⟩ := Int.eq_ofNat_of_zero_le (show 0 ≤ b.size.x by omega)
  obtain ⟨sy, hsy⟩ := Int.eq_ofNat_of_zero_le (show 0 ≤ b.size.y by omega)
  have e : ((p.x - b.mins.x) + b.size.x * ((p.y - b.mins.y) + b.size.y * (p.z - b.mins.z))).toNat
      = c * (sy * sx) + (b' * sx + a) := by
    rw [ha, hb, hc, hsx, hsy]
    rw [show ((a : Int) + sx * (b' + sy * c)) = ((c * (sy * sx) + (b' * sx + a) : Nat) : Int) by
      push_cast; ring, Int.toNat_natCast]
  have hbs : b' < sy := by omega
  have has : a < sx := by omega
  have hlt : b' * sx + a < sy * sx := by
    have : (b' + 1) * sx ≤ sy * sx := Nat.mul_le_mul_right _ hbs
    rw [Nat.add_mul] at this
    omega
  rw [e]
  unfold cells
  rw [flatMap_get (m := sy * sx) hlt
    (fun z _ => by rw [flatMap_const_length (m := sx) (fun y _ => by simp [hsx])]; simp [hsy])]
  have gz := span_get (m := b.mins.z) (s := b.size.z) z0 z1
  rw [hc, Int.toNat_natCast] at gz
  rw [gz, Option.bind_some, flatMap_get (m := sx) has (fun y _ => by simp [hsx])]
  have gy := span_get (m := b.mins.y) (s := b.size.y) y0 y1
  rw [hb, Int.toNat_natCast] at gy
  rw [gy, Option.bind_some, List.getElem?_map]
  have gx := span_get (m := b.mins.x) (s := b.size.x) x0 x1
  rw [ha, Int.toNat_natCast] at gx
  rw [gx]
  rfl

/-- The box is a part of the grid. -/
def Inside (size : P3) (b : Box) : Prop := ∀ p, b.Has p → InGrid size p

theorem count_ok {d : Raw} (hd : Sized d) {b : Box} (hb : Inside d.size b) :
    ∃ o u, count d b = .ok (o, u) ∧ (u = 0 ↔ ∀ p, b.Has p → occ d p = true) := by
  refine ⟨((cells b).map (occ d)).count true, ((cells b).map (occ d)).count false, ?_, ?_⟩
  · unfold count
    rw [each_ok (g := occ d) (fun p hp => occludedAt_ok hd (hb p (mem_cells.mp hp)))]
    rfl
  · rw [List.count_eq_zero]
    constructor
    · intro h p hp
      by_contra hc
      exact h (List.mem_map.mpr ⟨p, mem_cells.mpr hp, by simpa using hc⟩)
    · intro h hm
      obtain ⟨p, hp, e⟩ := List.mem_map.mp hm
      rw [h p (mem_cells.mp hp)] at e
      exact absurd e (by decide)

end Verif.LightGrid
