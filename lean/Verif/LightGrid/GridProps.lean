import Verif.LightGrid.Props

/-!
Properties of the whole computation of the light grid (C123) and of the place of the grid
points (C124).
-/

namespace Verif.LightGrid

open Verif.Stream Verif.Light

/-- The number of grid points on each axis, as the documentation of `-lightgrid_dist` has it: one
for each begun distance. -/
def counts (mins maxs dist : Fin 3 → ℚ) : P3 :=
  ⟨⌈(maxs 0 - mins 0) / dist 0⌉, ⌈(maxs 1 - mins 1) / dist 1⌉, ⌈(maxs 2 - mins 2) / dist 2⌉⟩

/-- The place of a grid point in the world. -/
def place3 (mins dist : Fin 3 → ℚ) (p : P3) : Fin 3 → ℚ := fun a => mins a + ![p.x, p.y, p.z] a * dist a

theorem worldPoint_eq (mins dist : Fin 3 → ℚ) (p : P3) : worldPoint mins dist p = place3 mins dist p := by
  funext a
  fin_cases a <;> rfl

theorem pointOf_idx {size p : P3} (h : InGrid size p) : pointOf size (idx size p) = p := by
  have hb := idx_bounds h
  obtain ⟨⟨x0, x1⟩, ⟨y0, y1⟩, z0, z1⟩ := h
  have hx : 0 < size.x := by omega
  have hy : 0 < size.y := by omega
  have hxy : 0 < size.x * size.y := Int.mul_pos hx hy
  have e1 : idx size p = p.x + size.x * (p.y + size.y * p.z) := by unfold idx; ring
  have q1 : idx size p % size.x = p.x := by
    rw [e1, Int.add_mul_emod_self_left, Int.emod_eq_of_lt x0 x1]
  have q2 : idx size p / size.x = p.y + size.y * p.z := by
    rw [e1, Int.add_mul_ediv_left _ _ (by omega), Int.ediv_eq_zero_of_lt x0 x1, Int.zero_add]
  have q3 : (p.y + size.y * p.z) % size.y = p.y := by
    rw [Int.add_mul_emod_self_left, Int.emod_eq_of_lt y0 y1]
  have q4 : (p.y + size.y * p.z) / size.y = p.z := by
    rw [Int.add_mul_ediv_left _ _ (by omega), Int.ediv_eq_zero_of_lt y0 y1, Int.zero_add]
  unfold pointOf
  rw [Int.tmod_eq_emod_of_nonneg hb.1, Int.tdiv_eq_ediv_of_nonneg hb.1, Int.tdiv_eq_ediv_of_nonneg hb.1, q1,
    ← Int.ediv_ediv_of_nonneg hx.le, q2, q4, Int.tmod_eq_emod_of_nonneg, q3]
  have := Int.mul_nonneg hy.le z0
  omega

/-! ### The parallel loop -/

theorem fold_sample (light : (Fin 3 → ℚ) → Samples × Bool) (mins dist : Fin 3 → ℚ) : ∀ (l : List Nat) (d : Raw),
    (l.foldl (sampleStep light mins dist) d).size = d.size ∧
    (l.foldl (sampleStep light mins dist) d).result.length = d.result.length ∧
    (l.foldl (sampleStep light mins dist) d).occlusion.length = d.occlusion.length ∧
    (∀ i ∈ l, i < d.result.length → (l.foldl (sampleStep light mins dist) d).result[i]?
      = some (light (worldPoint mins dist (pointOf d.size i))).1) ∧
    (∀ i ∈ l, i < d.occlusion.length → (l.foldl (sampleStep light mins dist) d).occlusion[i]?
      = some (light (worldPoint mins dist (pointOf d.size i))).2) ∧
    (∀ i, i ∉ l → (l.foldl (sampleStep light mins dist) d).result[i]? = d.result[i]? ∧
      (l.foldl (sampleStep light mins dist) d).occlusion[i]? = d.occlusion[i]?)
  | [], d => ⟨rfl, rfl, rfl, by simp, by simp, fun _ _ => ⟨rfl, rfl⟩⟩
  | j :: l, d => by
    obtain ⟨h1, h2, h3, h4, h5, h6⟩ := fold_sample light mins dist l (sampleStep light mins dist d j)
    have s1 : (sampleStep light mins dist d j).size = d.size := rfl
    have s2 : (sampleStep light mins dist d j).result.length = d.result.length := by simp [sampleStep]
    have s3 : (sampleStep light mins dist d j).occlusion.length = d.occlusion.length := by simp [sampleStep]
    rw [s1] at h1 h4 h5
    rw [s2] at h2 h4
    rw [s3] at h3 h5
    refine ⟨h1, h2, h3, ?_, ?_, ?_⟩
    · intro i hi hlt
      by_cases hil : i ∈ l
      · exact h4 i hil hlt
      · have hij : i = j := by
          rcases List.mem_cons.mp hi with h | h
          · exact h
          · exact absurd h hil
        subst hij
        refine (h6 i hil).1.trans ?_
        simp [sampleStep, hlt]
    · intro i hi hlt
      by_cases hil : i ∈ l
      · exact h5 i hil hlt
      · have hij : i = j := by
          rcases List.mem_cons.mp hi with h | h
          · exact h
          · exact absurd h hil
        subst hij
        refine (h6 i hil).2.trans ?_
        simp [sampleStep, hlt]
    · intro i hi
      rw [List.mem_cons, not_or] at hi
      refine ⟨(h6 i hi.2).1.trans ?_, (h6 i hi.2).2.trans ?_⟩
      · simp [sampleStep, List.getElem?_set_ne (Ne.symm hi.1)]
      · simp [sampleStep, List.getElem?_set_ne (Ne.symm hi.1)]

/-- What the loop leaves, whatever the order of its iterations. -/
theorem fold_perm (light : (Fin 3 → ℚ) → Samples × Bool) (mins dist : Fin 3 → ℚ) (size : P3) {n : Nat} {l : List Nat}
    (hl : l.Perm (List.range n)) :
    l.foldl (sampleStep light mins dist) ⟨size, List.replicate n noSamples, List.replicate n false⟩
      = ⟨size, (List.range n).map fun (i : Nat) => (light (worldPoint mins dist (pointOf size i))).1,
        (List.range n).map fun (i : Nat) => (light (worldPoint mins dist (pointOf size i))).2⟩ := by
  obtain ⟨h1, h2, h3, h4, h5, -⟩ := fold_sample light mins dist l
    ⟨size, List.replicate n noSamples, List.replicate n false⟩
  simp only [List.length_replicate] at h2 h3 h4 h5
  generalize hd : l.foldl (sampleStep light mins dist) _ = d at *
  obtain ⟨s, r, o⟩ := d
  simp only at h1 h2 h3 h4 h5
  subst h1
  congr 1
  · apply List.ext_getElem?
    intro i
    by_cases hi : i < n
    · rw [h4 i (hl.mem_iff.mpr (List.mem_range.mpr hi)) hi, List.getElem?_map, List.getElem?_range hi]
      rfl
    · rw [List.getElem?_eq_none (by omega), List.getElem?_eq_none (by simp; omega)]
  · apply List.ext_getElem?
    intro i
    by_cases hi : i < n
    · rw [h5 i (hl.mem_iff.mpr (List.mem_range.mpr hi)) hi, List.getElem?_map, List.getElem?_range hi]
      rfl
    · rw [List.getElem?_eq_none (by omega), List.getElem?_eq_none (by simp; omega)]

/-- C123. The lump does not depend on the order in which the parallel loop computes the grid
points. -/
theorem light_grid_schedule (bits : ℚ → Nat) (light : (Fin 3 → ℚ) → Samples × Bool) (order order' : Nat → List Nat)
    (ho : ∀ n, (order n).Perm (List.range n)) (ho' : ∀ n, (order' n).Perm (List.range n)) (mins maxs dist : Fin 3 → ℚ) :
    lightGrid bits light order mins maxs dist = lightGrid bits light order' mins maxs dist := by
  unfold lightGrid
  congr 1; funext sx
  congr 1; funext sy
  congr 1; funext sz
  congr 1; funext sxy
  congr 1; funext n
  split
  · rfl
  · simp only [fold_perm light mins dist _ (ho n.toNat), fold_perm light mins dist _ (ho' n.toNat)]

/-! ### The number of styles -/

theorem foldl_max_le (rs : List Samples) : ∀ (m : Nat), m ≤ rs.foldl (fun m s => max m (usedStyles s)) m ∧
    (∀ s ∈ rs, usedStyles s ≤ rs.foldl (fun m s => max m (usedStyles s)) m) ∧
    (rs.foldl (fun m s => max m (usedStyles s)) m = m ∨
      ∃ s ∈ rs, usedStyles s = rs.foldl (fun m s => max m (usedStyles s)) m) := by
  induction rs with
  | nil => intro m; simp
  | cons s rs ih =>
    intro m
    obtain ⟨h1, h2, h3⟩ := ih (max m (usedStyles s))
    simp only [List.foldl_cons]
    refine ⟨by omega, ?_, ?_⟩
    · intro t ht
      rcases List.mem_cons.mp ht with rfl | ht
      · omega
      · exact h2 t ht
    · rcases h3 with h3 | ⟨t, ht, e⟩
      · by_cases hm : m ≤ usedStyles s
        · right; exact ⟨s, by simp, by omega⟩
        · left; omega
      · right; exact ⟨t, List.mem_cons_of_mem _ ht, e⟩

theorem numStyles_ok {rs : List Samples} (h : ∀ l ∈ rs, l.length ≤ 4) :
    numStyles rs < 256 ∧ (∀ s ∈ rs, usedStyles s ≤ numStyles rs) ∧
      (numStyles rs = 0 ∨ ∃ s ∈ rs, usedStyles s = numStyles rs) := by
  obtain ⟨h1, h2, h3⟩ := foldl_max_le rs 0
  have hle : rs.foldl (fun m s => max m (usedStyles s)) 0 ≤ 4 := by
    rcases h3 with h3 | ⟨s, hs, e⟩
    · omega
    · rw [← e]; exact le_trans (usedStyles_le s) (h s hs)
  have e : numStyles rs = rs.foldl (fun m s => max m (usedStyles s)) 0 := by
    unfold numStyles; exact Nat.mod_eq_of_lt (by omega)
  rw [e]
  exact ⟨by omega, h2, h3⟩

/-! ### The whole -/

theorem ceil_pos {w d : ℚ} (hw : 0 < w) (hd : 0 < d) : 0 < ⌈w / d⌉ := Int.ceil_pos.mpr (div_pos hw hd)

theorem lightGrid_eq {bits : ℚ → Nat} {light : (Fin 3 → ℚ) → Samples × Bool} {order : Nat → List Nat}
    {mins maxs dist : Fin 3 → ℚ} {n : P3} (hn : n = counts mins maxs dist) (hd : ∀ a, dist a ≠ 0)
    (hp : 0 < n.x ∧ 0 < n.y ∧ 0 < n.z) (hs : n.x * n.y * n.z < 2 ^ 31) (ho : ∀ n, (order n).Perm (List.range n)) :
    lightGrid bits light order mins maxs dist =
      makeOctreeLump ⟨[bits (dist 0), bits (dist 1), bits (dist 2)], [bits (mins 0), bits (mins 1), bits (mins 2)],
        numStyles ((List.range (n.x * n.y * n.z).toNat).map fun (i : Nat) =>
          (light (worldPoint mins dist (pointOf n i))).1)⟩
        ⟨n, (List.range (n.x * n.y * n.z).toNat).map fun (i : Nat) => (light (worldPoint mins dist (pointOf n i))).1,
          (List.range (n.x * n.y * n.z).toNat).map fun (i : Nat) =>
            (light (worldPoint mins dist (pointOf n i))).2⟩ := by
  obtain ⟨px, py, pz⟩ := hp
  have hxy : 0 < n.x * n.y := Int.mul_pos px py
  have a0 : n.x * n.y * 1 ≤ n.x * n.y * n.z := Int.mul_le_mul_of_nonneg_left (by omega) hxy.le
  have a1 : n.x * 1 ≤ n.x * n.y := Int.mul_le_mul_of_nonneg_left (by omega) px.le
  have a2 : 1 * n.y ≤ n.x * n.y := Int.mul_le_mul_of_nonneg_right (by omega) py.le
  have a3 : 1 * n.z ≤ n.x * n.y * n.z := Int.mul_le_mul_of_nonneg_right (by omega) pz.le
  have cx : axisCount (maxs 0 - mins 0) (dist 0) = .ok n.x := by
    unfold axisCount; rw [if_neg (hd 0)]
    rw [hn] at px a1 a0 hs ⊢
    exact int_ok px.le (by simp only [counts] at *; omega)
  have cy : axisCount (maxs 1 - mins 1) (dist 1) = .ok n.y := by
    unfold axisCount; rw [if_neg (hd 1)]
    rw [hn] at py a2 a0 hs ⊢
    exact int_ok py.le (by simp only [counts] at *; omega)
  have cz : axisCount (maxs 2 - mins 2) (dist 2) = .ok n.z := by
    unfold axisCount; rw [if_neg (hd 2)]
    rw [hn] at pz a3 hs ⊢
    exact int_ok pz.le (by simp only [counts] at *; omega)
  unfold lightGrid
  rw [cx, cy, cz]
  simp only [Outcome.ok_bind]
  rw [int_ok hxy.le (by omega)]
  simp only [Outcome.ok_bind]
  rw [int_ok (by omega) hs]
  simp only [Outcome.ok_bind]
  rw [if_neg (by omega)]
  simp only [fold_perm light mins dist n (ho _)]

/-- C123. If the distances are positive, the bounds of the map have an extent on every axis, and
there are less than 2^31 grid points, then the lump is written, whatever the order of the
computations, and for every grid point a reader finds the light that was computed at the place
of that point in the world. The number of styles in the header is the largest number of
styles of any point. -/
theorem light_grid_tells_partial {bits : ℚ → Nat} {light : (Fin 3 → ℚ) → Samples × Bool} {order : Nat → List Nat}
    {mins maxs dist : Fin 3 → ℚ} {n : P3} (hbits : ∀ q, bits q < 2 ^ 32)
    (hl : ∀ w, FineSamples (light w).1) (ho : ∀ n, (order n).Perm (List.range n))
    (hd : ∀ a, 0 < dist a) (hb : ∀ a, mins a < maxs a)
    (hn : n = counts mins maxs dist) (hs : n.x * n.y * n.z < 2 ^ 31) :
    ∃ bs g, lightGrid bits light order mins maxs dist = .ok bs ∧ lump bs = some (g, []) ∧
      g.size = n ∧ g.dist = [(bits (dist 0) : Int), bits (dist 1), bits (dist 2)] ∧
      g.mins = [(bits (mins 0) : Int), bits (mins 1), bits (mins 2)] ∧
      (∀ p, InGrid n p → ∃ c, (∀ c', Finds g g.root p c' ↔ c' = c) ∧
        Right (light (place3 mins dist p)).2 (light (place3 mins dist p)).1 c) ∧
      (∀ p, InGrid n p →
        (((light (place3 mins dist p)).1.takeWhile (·.used)).length : Int) ≤ g.numStyles) ∧
      (g.numStyles = 0 ∨ ∃ p, InGrid n p ∧
        (((light (place3 mins dist p)).1.takeWhile (·.used)).length : Int) = g.numStyles) := by
  have px : 0 < n.x := by rw [hn]; exact ceil_pos (by linarith [hb 0]) (hd 0)
  have py : 0 < n.y := by rw [hn]; exact ceil_pos (by linarith [hb 1]) (hd 1)
  have pz : 0 < n.z := by rw [hn]; exact ceil_pos (by linarith [hb 2]) (hd 2)
  have heq := lightGrid_eq (bits := bits) (light := light) (order := order) hn (fun a => (hd a).ne') ⟨px, py, pz⟩ hs ho
  set N := (n.x * n.y * n.z).toNat with hN
  set R := (List.range N).map fun (i : Nat) => (light (worldPoint mins dist (pointOf n i))).1 with hR
  set O := (List.range N).map fun (i : Nat) => (light (worldPoint mins dist (pointOf n i))).2 with hO
  have hfine : ∀ l ∈ R, FineSamples l := by
    intro l h
    obtain ⟨i, -, rfl⟩ := List.mem_map.mp h
    exact hl _
  obtain ⟨ns1, ns2, ns3⟩ := numStyles_ok (rs := R) (fun l h => (hfine l h).1)
  have hsz : Sized ⟨n, R, O⟩ := ⟨px, py, pz, hs, by simp [hR, hN], by simp [hO, hN]⟩
  obtain ⟨bs, g, h1, h2, h3⟩ := octree_lump_tells
    (h := ⟨[bits (dist 0), bits (dist 1), bits (dist 2)], [bits (mins 0), bits (mins 1), bits (mins 2)], numStyles R⟩)
    (d := ⟨n, R, O⟩)
    ⟨rfl, rfl, fun v hv => by
        simp only [List.mem_cons, List.not_mem_nil, or_false] at hv
        rcases hv with rfl | rfl | rfl <;> exact hbits _,
      fun v hv => by
        simp only [List.mem_cons, List.not_mem_nil, or_false] at hv
        rcases hv with rfl | rfl | rfl <;> exact hbits _, ns1⟩ hsz hfine
  have hat : ∀ p, InGrid n p → R[place n p]? = some (light (place3 mins dist p)).1 ∧
      O[place n p]? = some (light (place3 mins dist p)).2 := by
    intro p hp
    have hbd := idx_bounds hp
    have hlt : place n p < N := by rw [place_eq, hN]; clear * - hbd; omega
    have e : pointOf n (place n p : Nat) = p := by
      rw [place_eq, Int.toNat_of_nonneg hbd.1, pointOf_idx hp]
    constructor
    · rw [hR, List.getElem?_map, List.getElem?_range hlt, Option.map_some, e, worldPoint_eq]
    · rw [hO, List.getElem?_map, List.getElem?_range hlt, Option.map_some, e, worldPoint_eq]
  refine ⟨bs, g, heq.trans h1, h2, h3.size, h3.dist, h3.mins, ?_, ?_, ?_⟩
  · intro p hp
    obtain ⟨o, s, c, e1, e2, e3, e4⟩ := h3.points p hp
    dsimp only at e1 e2
    rw [(hat p hp).1, Option.some.injEq] at e2
    rw [(hat p hp).2, Option.some.injEq] at e1
    subst e1 e2
    exact ⟨c, e3, e4⟩
  · intro p hp
    rw [h3.styles, ← usedStyles_eq]
    have := ns2 _ (List.mem_of_getElem? (hat p hp).1)
    dsimp only
    omega
  · rw [h3.styles]
    dsimp only
    rcases ns3 with h | ⟨s, hs', e⟩
    · left; rw [h]; rfl
    · right
      obtain ⟨i, hi, rfl⟩ := List.mem_map.mp hs'
      rw [List.mem_range] at hi
      obtain ⟨p, hp, hpi⟩ : ∃ p, InGrid n p ∧ pointOf n (i : Nat) = p := by
        refine ⟨pointOf n i, ?_, rfl⟩
        have hxy : 0 < n.x * n.y := Int.mul_pos px py
        unfold pointOf InGrid
        dsimp only
        have hi0 : (0 : Int) ≤ i := by omega
        have hiN : (i : Int) < n.x * n.y * n.z := by omega
        rw [Int.tmod_eq_emod_of_nonneg hi0, Int.tdiv_eq_ediv_of_nonneg hi0, Int.tdiv_eq_ediv_of_nonneg hi0,
          Int.tmod_eq_emod_of_nonneg (Int.ediv_nonneg hi0 px.le)]
        refine ⟨⟨Int.emod_nonneg _ (by omega), Int.emod_lt_of_pos _ px⟩,
          ⟨Int.emod_nonneg _ (by omega), Int.emod_lt_of_pos _ py⟩, Int.ediv_nonneg hi0 hxy.le,
          Int.ediv_lt_of_lt_mul hxy ?_⟩
        rw [Int.mul_comm]
        exact hiN
      refine ⟨p, hp, ?_⟩
      rw [← worldPoint_eq, ← usedStyles_eq, ← hpi]
      exact_mod_cast e

/-- C123, what is missing: a distance of zero is undefined. -/
theorem light_grid_zero_distance (bits : ℚ → Nat) (light : (Fin 3 → ℚ) → Samples × Bool) (order : Nat → List Nat)
    (mins maxs dist : Fin 3 → ℚ) (h : ∃ a, dist a = 0) : lightGrid bits light order mins maxs dist = .ub := by
  have hax : ∀ w d : ℚ, axisCount w d = .ub ∨ ∃ v, axisCount w d = .ok v := by
    intro w d
    unfold axisCount int
    split
    · exact .inl rfl
    · split
      · exact .inr ⟨_, rfl⟩
      · exact .inl rfl
  obtain ⟨a, ha⟩ := h
  unfold lightGrid
  rcases hax (maxs 0 - mins 0) (dist 0) with h0 | ⟨x, h0⟩
  · rw [h0]; rfl
  rw [h0]
  simp only [Outcome.ok_bind]
  rcases hax (maxs 1 - mins 1) (dist 1) with h1 | ⟨y, h1⟩
  · rw [h1]; rfl
  rw [h1]
  simp only [Outcome.ok_bind]
  rcases hax (maxs 2 - mins 2) (dist 2) with h2 | ⟨z, h2⟩
  · rw [h2]; rfl
  exfalso
  unfold axisCount at h0 h1 h2
  fin_cases a
  · rw [if_pos (show dist 0 = 0 from ha)] at h0; cases h0
  · rw [if_pos (show dist 1 = 0 from ha)] at h1; cases h1
  · rw [if_pos (show dist 2 = 0 from ha)] at h2; cases h2

/-- C123, what is missing: a grid with 2^31 points or more is undefined. -/
theorem light_grid_too_large {bits : ℚ → Nat} {light : (Fin 3 → ℚ) → Samples × Bool} {order : Nat → List Nat}
    {mins maxs dist : Fin 3 → ℚ} {n : P3} (hn : n = counts mins maxs dist)
    (hs : 2 ^ 31 ≤ n.x * n.y * n.z) : lightGrid bits light order mins maxs dist = .ub := by
  by_cases hz : ∃ a, dist a = 0
  · exact light_grid_zero_distance _ _ _ _ _ _ hz
  push Not at hz
  have hax : ∀ w d : ℚ, d ≠ 0 → axisCount w d = .ub ∨ axisCount w d = .ok ⌈w / d⌉ := by
    intro w d hd
    unfold axisCount int
    rw [if_neg hd]
    split
    · exact .inr rfl
    · exact .inl rfl
  have hint : ∀ v : Int, int v = .ub ∨ int v = .ok v := by
    intro v
    unfold int
    split
    · exact .inr rfl
    · exact .inl rfl
  unfold lightGrid
  rcases hax (maxs 0 - mins 0) (dist 0) (hz 0) with h0 | h0
  · rw [h0]; rfl
  rw [h0]
  simp only [Outcome.ok_bind]
  rcases hax (maxs 1 - mins 1) (dist 1) (hz 1) with h1 | h1
  · rw [h1]; rfl
  rw [h1]
  simp only [Outcome.ok_bind]
  rcases hax (maxs 2 - mins 2) (dist 2) (hz 2) with h2 | h2
  · rw [h2]; rfl
  rw [h2]
  simp only [Outcome.ok_bind]
  rcases hint (⌈(maxs 0 - mins 0) / dist 0⌉ * ⌈(maxs 1 - mins 1) / dist 1⌉) with h3 | h3
  · rw [h3]; rfl
  rw [h3]
  simp only [Outcome.ok_bind]
  rw [hn] at hs
  simp only [counts] at hs
  have h4 : int (⌈(maxs 0 - mins 0) / dist 0⌉ * ⌈(maxs 1 - mins 1) / dist 1⌉ * ⌈(maxs 2 - mins 2) / dist 2⌉) = .ub := by
    unfold int
    rw [if_neg (by omega)]
  rw [h4]
  rfl

/-! ### The place of the grid points -/

/-- C124. Every place within the bounds is, on each axis, at most one grid distance above some
grid coordinate. -/
theorem grid_near_partial {lo hi dist w : ℚ} (hd : 0 < dist) (hb : lo < hi) (h0 : lo ≤ w) (h1 : w ≤ hi) :
    ∃ k : Int, (0 ≤ k ∧ k < ⌈(hi - lo) / dist⌉) ∧ 0 ≤ w - (lo + k * dist) ∧ w - (lo + k * dist) ≤ dist := by
  by_cases hw : w = hi
  · subst hw
    refine ⟨⌈(w - lo) / dist⌉ - 1, ⟨?_, by omega⟩, ?_, ?_⟩
    · have := ceil_pos (show 0 < w - lo by linarith) hd
      omega
    · have h2 := Int.ceil_lt_add_one ((w - lo) / dist)
      have h3 : ((⌈(w - lo) / dist⌉ - 1 : Int) : ℚ) * dist < (w - lo) / dist * dist := by
        push_cast
        exact mul_lt_mul_of_pos_right (by linarith) hd
      rw [div_mul_cancel₀ _ hd.ne'] at h3
      linarith
    · have h2 := Int.le_ceil ((w - lo) / dist)
      have h3 : (w - lo) / dist * dist ≤ (⌈(w - lo) / dist⌉ : ℚ) * dist := mul_le_mul_of_nonneg_right h2 hd.le
      rw [div_mul_cancel₀ _ hd.ne'] at h3
      push_cast
      linarith
  · refine ⟨⌊(w - lo) / dist⌋, ⟨Int.floor_nonneg.mpr (div_nonneg (by linarith) hd.le), ?_⟩, ?_, ?_⟩
    · have hlt : w < hi := lt_of_le_of_ne h1 hw
      have h2 : (w - lo) / dist < (hi - lo) / dist := div_lt_div_of_pos_right (by linarith) hd
      have h3 : (⌊(w - lo) / dist⌋ : ℚ) < (⌈(hi - lo) / dist⌉ : ℚ) :=
        lt_of_le_of_lt (Int.floor_le _) (lt_of_lt_of_le h2 (Int.le_ceil _))
      exact_mod_cast h3
    · have h2 := mul_le_mul_of_nonneg_right (Int.floor_le ((w - lo) / dist)) hd.le
      rw [div_mul_cancel₀ _ hd.ne'] at h2
      linarith
    · have h2 := mul_le_mul_of_nonneg_right (Int.lt_floor_add_one ((w - lo) / dist)).le hd.le
      rw [div_mul_cancel₀ _ hd.ne'] at h2
      linarith

/-- C124, what is missing: the upper limit of the bounds is above every grid coordinate, so that
the last strip of the map has no grid points on its far side. -/
theorem grid_never_reaches_top {lo hi dist : ℚ} (hd : 0 < dist) (k : Int) (hk : k < ⌈(hi - lo) / dist⌉) :
    lo + k * dist < hi := by
  have h := Int.lt_ceil.mp hk
  have h2 := mul_lt_mul_of_pos_right h hd
  rw [div_mul_cancel₀ _ hd.ne'] at h2
  linarith

end Verif.LightGrid
