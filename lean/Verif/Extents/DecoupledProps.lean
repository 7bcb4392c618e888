import Verif.Extents.ExtentProps

/-!
C162: lightmaps with a size in world units per luxel (`-world_units_per_luxel`): they always have points, a luxel has this
size seen along the main axis of the face and is not stretched more than by the square root of 3 on the face, the lightmap
is not mirrored, and the data that is written describes the same lightmap, unless it is wider than 65535 luxels.
-/

namespace Verif.Extents

open Verif.Geom

section
variable {K : Type} [Field K] [LinearOrder K] [IsStrictOrderedRing K] [FloorRing K]

/-- The lightmap coordinates for world units, with their rows. -/
theorem decoupled_coord {f : Face K} {units : K} {e : Ext K} (h : decoupled f units = .ok e) (p q : Vec K) :
    (e.lmCoord p).1 - (e.lmCoord q).1 =
      (dot (tangents (snapped f.plane.normal)).1 p - dot (tangents (snapped f.plane.normal)).1 q) / units ∧
    (e.lmCoord p).2 - (e.lmCoord q).2 =
      (dot (tangents (snapped f.plane.normal)).2 p - dot (tangents (snapped f.plane.normal)).2 q) / units := by
  obtain ⟨hu, a, b, sp, _, _, _, _, _, hl, _, _, _⟩ := decoupled_ok h
  unfold Ext.lmCoord
  rw [hl]
  obtain ⟨f0, f1, _, _⟩ := frame_app
    ⟨scale (1 / units) (tangents (snapped f.plane.normal)).1, -(a.1 : K)⟩
    ⟨scale (1 / units) (tangents (snapped f.plane.normal)).2, -(b.1 : K)⟩ f.plane p.x p.y p.z 1
  obtain ⟨g0, g1, _, _⟩ := frame_app
    ⟨scale (1 / units) (tangents (snapped f.plane.normal)).1, -(a.1 : K)⟩
    ⟨scale (1 / units) (tangents (snapped f.plane.normal)).2, -(b.1 : K)⟩ f.plane q.x q.y q.z 1
  rw [f0, f1, g0, g1]
  simp only [scale, dot]
  constructor <;> ring

/-- The two tangents, by the main axis. -/
theorem tangent_pair (n : Vec K) (h : ¬ (n.x = 0 ∧ n.y = 0 ∧ n.z = 0)) : ∃ a, Spec.Dominant n a ∧
    (∀ p q, (dot (tangents (snapped n)).1 p - dot (tangents (snapped n)).1 q) ^ 2 +
      (dot (tangents (snapped n)).2 p - dot (tangents (snapped n)).2 q) ^ 2 = Spec.seenAlong a p q) ∧
    0 < Spec.triple (tangents (snapped n)).1 (tangents (snapped n)).2 n := by
  obtain ⟨hd, hc⟩ := largest_spec n h
  refine ⟨largest n, hd, ?_⟩
  rw [tangents_snapped]
  have hl : largest n = 0 ∨ largest n = 1 ∨ largest n = 2 := by
    rcases hd with ⟨e, _⟩ | ⟨e, _⟩ | ⟨e, _⟩
    · exact .inl e
    · exact .inr (.inl e)
    · exact .inr (.inr e)
  have neg : ∀ x : K, x ≠ 0 → ¬ x > 0 → 0 < -x := by
    intro x h1 h2
    rcases lt_or_gt_of_ne h1 with c | c
    · linarith
    · exact absurd c h2
  rcases hl with e | e | e
  · rw [e] at hc ⊢
    have hc' : n.x ≠ 0 := hc
    simp only [if_true]
    by_cases c : n.x > 0
    · rw [if_pos c]
      refine ⟨?_, ?_⟩
      · intro p q; simp only [dot, Spec.seenAlong]; ring
      · simp only [Spec.triple]; linarith
    · rw [if_neg c]
      have k := neg _ hc' c
      refine ⟨?_, ?_⟩
      · intro p q; simp only [dot, Spec.seenAlong]; ring
      · simp only [Spec.triple]; linarith
  · rw [e] at hc ⊢
    have hc' : n.y ≠ 0 := hc
    rw [if_neg (by omega), if_pos rfl]
    by_cases c : n.y > 0
    · rw [if_pos c]
      refine ⟨?_, ?_⟩
      · intro p q; simp only [dot, Spec.seenAlong]; ring
      · simp only [Spec.triple]; linarith
    · rw [if_neg c]
      have k := neg _ hc' c
      refine ⟨?_, ?_⟩
      · intro p q; simp only [dot, Spec.seenAlong]; ring
      · simp only [Spec.triple]; linarith
  · rw [e] at hc ⊢
    have hc' : n.z ≠ 0 := hc
    rw [if_neg (by omega), if_neg (by omega)]
    by_cases c : n.z > 0
    · rw [if_pos c]
      refine ⟨?_, ?_⟩
      · intro p q; simp only [dot, Spec.seenAlong]; ring
      · simp only [Spec.triple]; linarith
    · rw [if_neg c]
      have k := neg _ hc' c
      refine ⟨?_, ?_⟩
      · intro p q; simp only [dot, Spec.seenAlong]; ring
      · simp only [Spec.triple]; linarith

/-- Every lightmap coordinate has a point: with world units the direction of the texture does not matter. -/
theorem units_mapping_exists {f : Face K} {units : K} {e : Ext K} (h : decoupled f units = .ok e)
    (hn : ¬ (f.plane.normal.x = 0 ∧ f.plane.normal.y = 0 ∧ f.plane.normal.z = 0)) (s t : K) : e.world s t ≠ none := by
  obtain ⟨hu, a, b, sp, _, _, _, _, _, hl, hw, _, _⟩ := decoupled_ok h
  rw [Ne, world_none, hw, hl, inverse_none, frame_det]
  obtain ⟨_, _, _, ht⟩ := tangent_pair f.plane.normal hn
  have : Spec.triple (scale (1 / units) (tangents (snapped f.plane.normal)).1)
      (scale (1 / units) (tangents (snapped f.plane.normal)).2) f.plane.normal =
      (1 / units) * (1 / units) *
        Spec.triple (tangents (snapped f.plane.normal)).1 (tangents (snapped f.plane.normal)).2 f.plane.normal := by
    simp only [Spec.triple, scale]; ring
  rw [this]
  have k : 1 / units ≠ 0 := one_div_ne_zero hu
  exact mul_ne_zero (mul_ne_zero k k) (ne_of_gt ht)

/-- Seen along the main axis of its normal, the distance of two points in luxels is their distance in units. -/
theorem units_scale {f : Face K} {units : K} {e : Ext K} (h : decoupled f units = .ok e)
    (hn : ¬ (f.plane.normal.x = 0 ∧ f.plane.normal.y = 0 ∧ f.plane.normal.z = 0)) :
    ∃ a, Spec.Dominant f.plane.normal a ∧
      ∀ p q, Spec.lmDist2 (e.lmCoord p) (e.lmCoord q) * (units * units) = Spec.seenAlong a p q := by
  obtain ⟨hu, _⟩ := decoupled_ok h
  obtain ⟨a, hd, hs, _⟩ := tangent_pair f.plane.normal hn
  refine ⟨a, hd, ?_⟩
  intro p q
  obtain ⟨h1, h2⟩ := decoupled_coord h p q
  unfold Spec.lmDist2
  rw [h1, h2, ← hs p q]
  field_simp

/-- On the face, two points are at most the square root of 3 times as far apart as their luxels. -/
theorem units_stretch {f : Face K} {units : K} {e : Ext K} (h : decoupled f units = .ok e)
    (hn : ¬ (f.plane.normal.x = 0 ∧ f.plane.normal.y = 0 ∧ f.plane.normal.z = 0)) {p q : Vec K}
    (hp : Spec.On f.plane p) (hq : Spec.On f.plane q) :
    Spec.lmDist2 (e.lmCoord p) (e.lmCoord q) * (units * units) ≤ Spec.dist2 p q ∧
    Spec.dist2 p q ≤ 3 * (Spec.lmDist2 (e.lmCoord p) (e.lmCoord q) * (units * units)) := by
  obtain ⟨a, hd, hs⟩ := units_scale h hn
  rw [hs p q]
  unfold Spec.On at hp hq
  generalize f.plane.normal = n at *
  have key : ∀ nx ny nz dx dy dz : K, nx ≠ 0 → |ny| ≤ |nx| → |nz| ≤ |nx| → dx * nx + dy * ny + dz * nz = 0 →
      dx * dx ≤ 2 * (dy * dy + dz * dz) := by
    intro nx ny nz dx dy dz h0 h1 h2 h3
    have s1 : ny * ny ≤ nx * nx := by
      have := mul_self_le_mul_self (abs_nonneg ny) h1
      rwa [abs_mul_abs_self, abs_mul_abs_self] at this
    have s2 : nz * nz ≤ nx * nx := by
      have := mul_self_le_mul_self (abs_nonneg nz) h2
      rwa [abs_mul_abs_self, abs_mul_abs_self] at this
    have pos : 0 < nx * nx := mul_self_pos.2 h0
    have e1 : dx * nx = -(dy * ny + dz * nz) := by linarith
    have e2 : (dx * dx) * (nx * nx) = (dy * ny + dz * nz) * (dy * ny + dz * nz) := by
      have : (dx * nx) * (dx * nx) = (dy * ny + dz * nz) * (dy * ny + dz * nz) := by rw [e1]; ring
      rw [← this]; ring
    have e3 : (dy * ny + dz * nz) * (dy * ny + dz * nz) ≤ 2 * (dy * dy * (ny * ny) + dz * dz * (nz * nz)) := by
      nlinarith [mul_self_nonneg (dy * ny - dz * nz)]
    have e4 : dy * dy * (ny * ny) ≤ dy * dy * (nx * nx) := mul_le_mul_of_nonneg_left s1 (mul_self_nonneg _)
    have e5 : dz * dz * (nz * nz) ≤ dz * dz * (nx * nx) := mul_le_mul_of_nonneg_left s2 (mul_self_nonneg _)
    have e6 : (dx * dx) * (nx * nx) ≤ (2 * (dy * dy + dz * dz)) * (nx * nx) := by
      rw [e2]; linarith
    exact le_of_mul_le_mul_right e6 pos
  have zero : ∀ x : K, |x| ≤ 0 → x = 0 := fun x hx => abs_nonpos_iff.1 hx
  rcases hd with ⟨e, h1, h2⟩ | ⟨e, h1, h2⟩ | ⟨e, h1, h2⟩
  · rw [e]
    have h0 : n.x ≠ 0 := by
      intro e0
      rw [e0, abs_zero] at h1 h2
      exact hn ⟨e0, zero _ h1, zero _ h2⟩
    have k := key n.x n.y n.z (p.x - q.x) (p.y - q.y) (p.z - q.z) h0 h1 h2 (by linarith)
    simp only [Spec.seenAlong, Spec.dist2]
    constructor
    · nlinarith [mul_self_nonneg (p.x - q.x)]
    · nlinarith
  · rw [e]
    have h0 : n.y ≠ 0 := by
      intro e0
      rw [e0, abs_zero] at h1 h2
      exact hn ⟨zero _ h1, e0, zero _ h2⟩
    have k := key n.y n.x n.z (p.y - q.y) (p.x - q.x) (p.z - q.z) h0 h1 h2 (by linarith)
    simp only [Spec.seenAlong, Spec.dist2]
    constructor
    · nlinarith [mul_self_nonneg (p.y - q.y)]
    · nlinarith
  · rw [e]
    have h0 : n.z ≠ 0 := by
      intro e0
      rw [e0, abs_zero] at h1 h2
      exact hn ⟨zero _ h1, zero _ h2, e0⟩
    have k := key n.z n.x n.y (p.z - q.z) (p.x - q.x) (p.y - q.y) h0 h1 h2 (by linarith)
    simp only [Spec.seenAlong, Spec.dist2]
    constructor
    · nlinarith [mul_self_nonneg (p.z - q.z)]
    · nlinarith

/-- The lightmap is not mirrored: three points of the plane that turn to the left, seen from the front, also turn to the left
in the lightmap. -/
theorem units_not_mirrored {f : Face K} {units : K} {e : Ext K} (h : decoupled f units = .ok e)
    (hn : ¬ (f.plane.normal.x = 0 ∧ f.plane.normal.y = 0 ∧ f.plane.normal.z = 0)) {p q r : Vec K}
    (hp : Spec.On f.plane p) (hq : Spec.On f.plane q) (hr : Spec.On f.plane r)
    (ht : 0 < Spec.triple ⟨q.x - p.x, q.y - p.y, q.z - p.z⟩ ⟨r.x - p.x, r.y - p.y, r.z - p.z⟩ f.plane.normal) :
    0 < ((e.lmCoord q).1 - (e.lmCoord p).1) * ((e.lmCoord r).2 - (e.lmCoord p).2) -
      ((e.lmCoord q).2 - (e.lmCoord p).2) * ((e.lmCoord r).1 - (e.lmCoord p).1) := by
  obtain ⟨hu, _⟩ := decoupled_ok h
  obtain ⟨a, _, _, hpos⟩ := tangent_pair f.plane.normal hn
  obtain ⟨q1, q2⟩ := decoupled_coord h q p
  obtain ⟨r1, r2⟩ := decoupled_coord h r p
  rw [q1, q2, r1, r2]
  unfold Spec.On at hp hq hr
  generalize (tangents (snapped f.plane.normal)).1 = T at *
  generalize (tangents (snapped f.plane.normal)).2 = B at *
  generalize f.plane.normal = n at *
  have e1 : (q.x - p.x) * n.x + (q.y - p.y) * n.y + (q.z - p.z) * n.z = 0 := by linarith
  have e2 : (r.x - p.x) * n.x + (r.y - p.y) * n.y + (r.z - p.z) * n.z = 0 := by linarith
  have hN : 0 < n.x * n.x + n.y * n.y + n.z * n.z := by
    by_contra c
    have a1 := mul_self_nonneg n.x
    have a2 := mul_self_nonneg n.y
    have a3 := mul_self_nonneg n.z
    exact hn ⟨mul_self_eq_zero.1 (by linarith), mul_self_eq_zero.1 (by linarith), mul_self_eq_zero.1 (by linarith)⟩
  generalize hux : q.x - p.x = ux at *
  generalize huy : q.y - p.y = uy at *
  generalize huz : q.z - p.z = uz at *
  generalize hvx : r.x - p.x = vx at *
  generalize hvy : r.y - p.y = vy at *
  generalize hvz : r.z - p.z = vz at *
  have d1 : dot T q - dot T p = T.x * ux + T.y * uy + T.z * uz := by
    rw [← hux, ← huy, ← huz]; simp only [dot]; ring
  have d2 : dot B r - dot B p = B.x * vx + B.y * vy + B.z * vz := by
    rw [← hvx, ← hvy, ← hvz]; simp only [dot]; ring
  have d3 : dot B q - dot B p = B.x * ux + B.y * uy + B.z * uz := by
    rw [← hux, ← huy, ← huz]; simp only [dot]; ring
  have d4 : dot T r - dot T p = T.x * vx + T.y * vy + T.z * vz := by
    rw [← hvx, ← hvy, ← hvz]; simp only [dot]; ring
  rw [d1, d2, d3, d4]
  -- the determinant of a product of matrices
  have prod : ((T.x * ux + T.y * uy + T.z * uz) * (B.x * vx + B.y * vy + B.z * vz) -
      (B.x * ux + B.y * uy + B.z * uz) * (T.x * vx + T.y * vy + T.z * vz)) * (n.x * n.x + n.y * n.y + n.z * n.z) =
      Spec.triple T B n * Spec.triple ⟨ux, uy, uz⟩ ⟨vx, vy, vz⟩ n := by
    simp only [Spec.triple]
    linear_combination
      (((T.z * B.x - T.x * B.z) * n.z - (T.x * B.y - T.y * B.x) * n.y) * vx + ((T.x * B.y - T.y * B.x) * n.x - (T.y * B.z - T.z * B.y) * n.z) * vy +
        ((T.y * B.z - T.z * B.y) * n.y - (T.z * B.x - T.x * B.z) * n.x) * vz) * e1 -
      (((T.z * B.x - T.x * B.z) * n.z - (T.x * B.y - T.y * B.x) * n.y) * ux + ((T.x * B.y - T.y * B.x) * n.x - (T.y * B.z - T.z * B.y) * n.z) * uy +
        ((T.y * B.z - T.z * B.y) * n.y - (T.z * B.x - T.x * B.z) * n.x) * uz) * e2
  have pp := mul_pos hpos ht
  rw [← prod] at pp
  have q := (pos_iff_pos_of_mul_pos pp).2 hN
  have u2 : 0 < 1 / (units * units) := one_div_pos.2 (mul_self_pos.2 hu)
  have fin := mul_pos q u2
  have e : ((T.x * ux + T.y * uy + T.z * uz) / units * ((B.x * vx + B.y * vy + B.z * vz) / units) -
      (B.x * ux + B.y * uy + B.z * uz) / units * ((T.x * vx + T.y * vy + T.z * vz) / units)) =
      ((T.x * ux + T.y * uy + T.z * uz) * (B.x * vx + B.y * vy + B.z * vz) -
      (B.x * ux + B.y * uy + B.z * uz) * (T.x * vx + T.y * vy + T.z * vz)) * (1 / (units * units)) := by
    field_simp
  rw [e]
  exact fin

omit [IsStrictOrderedRing K] [FloorRing K] [LinearOrder K] in
theorem entry (m : Mat K) (r : Nat) : m r = app m 1 0 0 0 r ∧ m (r + 4) = app m 0 1 0 0 r ∧ m (r + 8) = app m 0 0 1 0 r := by
  simp only [app]
  refine ⟨?_, ?_, ?_⟩ <;> ring

/-- A measured face has no negative extents. -/
theorem measured_nonneg {f : Face K} {e : Ext K} (h : Spec.Measured f e) : 0 ≤ e.w ∧ 0 ≤ e.h ∧ ∃ sp, sphere f = some sp := by
  have hs : ∃ sp, sphere f = some sp := by
    rcases h with ⟨shift, hs, h⟩ | ⟨units, hu, h⟩
    · obtain ⟨a, b, sp, i, _, _, h1, _⟩ := vanilla_ok h
      exact ⟨sp, h1⟩
    · obtain ⟨_, a, b, sp, _, _, h1, _⟩ := decoupled_ok h
      exact ⟨sp, h1⟩
  have hp : ∃ p, p ∈ f.points := by
    obtain ⟨sp, hs⟩ := hs
    cases hl : f.points with
    | nil =>
      unfold sphere at hs
      rw [hl] at hs
      simp [bounds1] at hs
    | cons p ps => exact ⟨p, List.mem_cons_self⟩
  obtain ⟨p, hp⟩ := hp
  obtain ⟨h1, h2, h3, h4⟩ := face_covered h (.corner hp)
  exact ⟨Int.cast_nonneg_iff.1 (le_trans h1 h2), Int.cast_nonneg_iff.1 (le_trans h3 h4), hs⟩

/-- The data stored for a face describes the same lightmap, if it is less than 65536 luxels wide and high. -/
theorem stored_agrees_partial {f : Face K} {e : Ext K} (h : Spec.Measured f e) (hw : e.w + 1 < 65536) (hh : e.h + 1 < 65536) :
    ∃ e', stored f (store e).1 (store e).2.1 (store e).2.2.1 (store e).2.2.2 = .ok e' ∧ e'.w = e.w ∧ e'.h = e.h ∧
      (∀ p, e'.lmCoord p = e.lmCoord p) ∧ ∀ s t, e'.world s t = e.world s t := by
  obtain ⟨w0, h0, sp, hsp⟩ := measured_nonneg h
  have ew : (store e).1 = (e.w + 1).toNat := by
    simp only [store]; exact Nat.mod_eq_of_lt (by omega)
  have eh : (store e).2.1 = (e.h + 1).toNat := by
    simp only [store]; exact Nat.mod_eq_of_lt (by omega)
  have hst : ∃ e', stored f (store e).1 (store e).2.1 (store e).2.2.1 (store e).2.2.2 = .ok e' := by
    unfold stored
    rw [if_pos ⟨by omega, by omega⟩, hsp]
    exact ⟨_, rfl⟩
  obtain ⟨e', hst⟩ := hst
  obtain ⟨_, _, sp', _, hw', hh', hl', ht', _, _⟩ := stored_ok hst
  have hc : ∀ p, e'.lmCoord p = e.lmCoord p := by
    intro p
    unfold Ext.lmCoord
    rw [hl']
    obtain ⟨f0, f1, _, _⟩ := frame_app (store e).2.2.1 (store e).2.2.2 f.plane p.x p.y p.z 1
    rw [f0, f1]
    simp only [store, app, Nat.reduceAdd, Nat.zero_add, Prod.mk.injEq]
    constructor <;> ring
  have hn : e'.toWorld = none ↔ e.toWorld = none := by
    rw [ht', inverse_none, frame_det]
    obtain ⟨x0, x1, x2⟩ := entry e.toLM 0
    obtain ⟨y0, y1, y2⟩ := entry e.toLM 1
    simp only [Nat.zero_add, Nat.reduceAdd] at x1 x2 y1 y2
    simp only [store, x0, x1, x2, y0, y1, y2]
    rcases h with ⟨shift, hs, h⟩ | ⟨units, hu, h⟩
    · have me := mapping_exists h 0 0
      rw [world_none] at me
      rw [me]
      obtain ⟨a, b, sp, i, _, _, _, hi, _, _, hl, _, _, _⟩ := vanilla_ok h
      rw [hl]
      obtain ⟨v0, v1, _, _⟩ := vanilla_app (f := f) (ne_of_gt hs) hi 1 0 0 0
      obtain ⟨v2, v3, _, _⟩ := vanilla_app (f := f) (ne_of_gt hs) hi 0 1 0 0
      obtain ⟨v4, v5, _, _⟩ := vanilla_app (f := f) (ne_of_gt hs) hi 0 0 1 0
      rw [v0, v1, v2, v3, v4, v5]
      have k : Spec.triple (⟨(1 * f.s.vec.x + 0 * f.s.vec.y + 0 * f.s.vec.z + 0 * f.s.ofs) / shift - a.1 * 0,
          (0 * f.s.vec.x + 1 * f.s.vec.y + 0 * f.s.vec.z + 0 * f.s.ofs) / shift - a.1 * 0,
          (0 * f.s.vec.x + 0 * f.s.vec.y + 1 * f.s.vec.z + 0 * f.s.ofs) / shift - a.1 * 0⟩ : Vec K)
          ⟨(1 * f.t.vec.x + 0 * f.t.vec.y + 0 * f.t.vec.z + 0 * f.t.ofs) / shift - b.1 * 0,
          (0 * f.t.vec.x + 1 * f.t.vec.y + 0 * f.t.vec.z + 0 * f.t.ofs) / shift - b.1 * 0,
          (0 * f.t.vec.x + 0 * f.t.vec.y + 1 * f.t.vec.z + 0 * f.t.ofs) / shift - b.1 * 0⟩ f.plane.normal =
          Spec.triple f.s.vec f.t.vec f.plane.normal / (shift * shift) := by
        simp only [Spec.triple]
        field_simp
        ring
      rw [k, div_eq_zero_iff]
      constructor
      · rintro (c | c)
        · exact c
        · exact absurd (mul_self_eq_zero.1 c) (ne_of_gt hs)
      · intro c; exact .inl c
    · obtain ⟨_, a, b, sp, _, _, _, _, _, hl, hwd, _, _⟩ := decoupled_ok h
      rw [hwd, inverse_none, hl, frame_det]
      obtain ⟨v0, v1, _, _⟩ := frame_app
        ⟨scale (1 / units) (tangents (snapped f.plane.normal)).1, -(a.1 : K)⟩
        ⟨scale (1 / units) (tangents (snapped f.plane.normal)).2, -(b.1 : K)⟩ f.plane 1 0 0 0
      obtain ⟨v2, v3, _, _⟩ := frame_app
        ⟨scale (1 / units) (tangents (snapped f.plane.normal)).1, -(a.1 : K)⟩
        ⟨scale (1 / units) (tangents (snapped f.plane.normal)).2, -(b.1 : K)⟩ f.plane 0 1 0 0
      obtain ⟨v4, v5, _, _⟩ := frame_app
        ⟨scale (1 / units) (tangents (snapped f.plane.normal)).1, -(a.1 : K)⟩
        ⟨scale (1 / units) (tangents (snapped f.plane.normal)).2, -(b.1 : K)⟩ f.plane 0 0 1 0
      rw [v0, v1, v2, v3, v4, v5]
      simp only [one_mul, zero_mul, add_zero, zero_add]
  refine ⟨e', hst, ?_, ?_, hc, ?_⟩
  · rw [hw', ew]; omega
  · rw [hh', eh]; omega
  · intro s t
    cases hm : e.world s t with
    | none => rw [world_none, hn, ← world_none (s := s) (t := t)]; exact hm
    | some p =>
      obtain ⟨h1, h2⟩ := rep_world (measured_rep h) hm
      have h3 : e'.toWorld ≠ none := by
        rw [Ne, hn, ← world_none (s := s) (t := t), hm]
        exact Option.some_ne_none p
      have h4 := rep_back (stored_rep hst) h1 h3
      rw [hc, h2] at h4
      exact h4

/-- A size of 0 units, which the settings and the keys of entities accept, is not defined. -/
theorem zero_units_undefined (f : Face K) : decoupled f 0 = .ub := if_pos rfl

end

/-- A sloped face, with 4 units per luxel. -/
def slopedFace : Face ℚ :=
  { points := [⟨0, 0, 0⟩, ⟨0, 30, 0⟩, ⟨16, 30, 12⟩, ⟨16, 0, 12⟩], plane := ⟨⟨-3 / 5, 0, 4 / 5⟩, 0⟩
    s := ⟨⟨0, 0, 0⟩, 0⟩, t := ⟨⟨0, 0, 0⟩, 0⟩ }

/-- It has 9 by 5 luxels and points although its texture vectors are 0, and a luxel along the slope is 5 units long. -/
example : ∃ e, decoupled slopedFace 4 = .ok e ∧ e.width = .ok 9 ∧ e.height = .ok 5 ∧ e.world 0 4 = some ⟨0, 0, 0⟩ ∧
    e.world 0 3 = some ⟨4, 0, 3⟩ := by
  obtain ⟨e, h, hp⟩ := check_ok (o := decoupled slopedFace 4) (p := fun e => decide (e.width = .ok 9 ∧ e.height = .ok 5 ∧
    e.world 0 4 = some ⟨0, 0, 0⟩ ∧ e.world 0 3 = some ⟨4, 0, 3⟩)) (by decide +kernel)
  exact ⟨e, h, of_decide_eq_true hp⟩

/-- A long face. -/
def longFace : Face ℚ :=
  { points := [⟨0, 0, 0⟩, ⟨0, 1, 0⟩, ⟨16384, 1, 0⟩, ⟨16384, 0, 0⟩], plane := ⟨⟨0, 0, 1⟩, 0⟩
    s := ⟨⟨1, 0, 0⟩, 0⟩, t := ⟨⟨0, -1, 0⟩, 0⟩ }

/-- With a quarter unit per luxel, the height of the lightmap of a face of 16384 units is 65537, and 1 is stored. -/
theorem stored_size_wraps : ∃ e, decoupled longFace (1 / 4) = .ok e ∧ e.height = .ok 65537 ∧ (store e).2.1 = 1 := by
  obtain ⟨e, h, hp⟩ := check_ok (o := decoupled longFace (1 / 4)) (p := fun e => decide (e.height = .ok 65537 ∧
    (store e).2.1 = 1)) (by decide +kernel)
  exact ⟨e, h, of_decide_eq_true hp⟩

/-- The extents of a face without a lightmap, for which 0 is stored, are not defined. -/
theorem unlit_extents_undefined {K : Type} [Field K] [LinearOrder K] (f : Face K) (h : Nat) (s t : TexRow K) :
    stored f 0 h s t = .ub := if_neg (fun c => absurd c.1 (by omega))

end Verif.Extents
