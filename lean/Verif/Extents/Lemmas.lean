import Mathlib.Tactic.FieldSimp
import Mathlib.Tactic.IntervalCases
import Mathlib.Tactic.LinearCombination
import Mathlib.Tactic.Linarith
import Mathlib.Tactic.Ring
import Verif.Extents.Spec

/-! Lemmas about matrices and bounds. -/

namespace Verif.Extents

open Verif.Geom

section
variable {K : Type} [Field K] [LinearOrder K]

omit [LinearOrder K] in
theorem app_mul (a b : Mat K) (x y z w : K) {r : Nat} (hr : r < 4) :
    app (mul a b) x y z w r = app a (app b x y z w 0) (app b x y z w 1) (app b x y z w 2) (app b x y z w 3) r := by
  interval_cases r <;> simp only [app, mul] <;> norm_num <;> ring

omit [LinearOrder K] in
theorem app_smul (a : Mat K) (k x y z w : K) (r : Nat) :
    app (fun i => a i * k) x y z w r = app a x y z w r * k := by
  simp only [app]; ring

omit [LinearOrder K] in
/-- A matrix times its adjugate. -/
theorem mul_adj (m : Mat K) (x y z w : K) :
    app m (app (mat (adjugate m)) x y z w 0) (app (mat (adjugate m)) x y z w 1) (app (mat (adjugate m)) x y z w 2)
      (app (mat (adjugate m)) x y z w 3) 0 = det m * x ∧
    app m (app (mat (adjugate m)) x y z w 0) (app (mat (adjugate m)) x y z w 1) (app (mat (adjugate m)) x y z w 2)
      (app (mat (adjugate m)) x y z w 3) 1 = det m * y ∧
    app m (app (mat (adjugate m)) x y z w 0) (app (mat (adjugate m)) x y z w 1) (app (mat (adjugate m)) x y z w 2)
      (app (mat (adjugate m)) x y z w 3) 2 = det m * z ∧
    app m (app (mat (adjugate m)) x y z w 0) (app (mat (adjugate m)) x y z w 1) (app (mat (adjugate m)) x y z w 2)
      (app (mat (adjugate m)) x y z w 3) 3 = det m * w := by
  generalize h0 : m 0 = m0
  generalize h1 : m 1 = m1
  generalize h2 : m 2 = m2
  generalize h3 : m 3 = m3
  generalize h4 : m 4 = m4
  generalize h5 : m 5 = m5
  generalize h6 : m 6 = m6
  generalize h7 : m 7 = m7
  generalize h8 : m 8 = m8
  generalize h9 : m 9 = m9
  generalize h10 : m 10 = m10
  generalize h11 : m 11 = m11
  generalize h12 : m 12 = m12
  generalize h13 : m 13 = m13
  generalize h14 : m 14 = m14
  generalize h15 : m 15 = m15
  simp only [app, mat, det, adjugate, List.getD_cons_zero, List.getD_cons_succ, Nat.zero_add, Nat.reduceAdd,
    h0, h1, h2, h3, h4, h5, h6, h7, h8, h9, h10, h11, h12, h13, h14, h15]
  refine ⟨?_, ?_, ?_, ?_⟩ <;> ring

omit [LinearOrder K] in
theorem adj_mul (m : Mat K) (x y z w : K) :
    app (mat (adjugate m)) (app m x y z w 0) (app m x y z w 1) (app m x y z w 2) (app m x y z w 3) 0 = det m * x ∧
    app (mat (adjugate m)) (app m x y z w 0) (app m x y z w 1) (app m x y z w 2) (app m x y z w 3) 1 = det m * y ∧
    app (mat (adjugate m)) (app m x y z w 0) (app m x y z w 1) (app m x y z w 2) (app m x y z w 3) 2 = det m * z ∧
    app (mat (adjugate m)) (app m x y z w 0) (app m x y z w 1) (app m x y z w 2) (app m x y z w 3) 3 = det m * w := by
  generalize h0 : m 0 = m0
  generalize h1 : m 1 = m1
  generalize h2 : m 2 = m2
  generalize h3 : m 3 = m3
  generalize h4 : m 4 = m4
  generalize h5 : m 5 = m5
  generalize h6 : m 6 = m6
  generalize h7 : m 7 = m7
  generalize h8 : m 8 = m8
  generalize h9 : m 9 = m9
  generalize h10 : m 10 = m10
  generalize h11 : m 11 = m11
  generalize h12 : m 12 = m12
  generalize h13 : m 13 = m13
  generalize h14 : m 14 = m14
  generalize h15 : m 15 = m15
  simp only [app, mat, det, adjugate, List.getD_cons_zero, List.getD_cons_succ, Nat.zero_add, Nat.reduceAdd,
    h0, h1, h2, h3, h4, h5, h6, h7, h8, h9, h10, h11, h12, h13, h14, h15]
  refine ⟨?_, ?_, ?_, ?_⟩ <;> ring

/-- What an inverse is. -/
def Inv (m i : Mat K) : Prop := ∀ x y z w : K,
  (app m (app i x y z w 0) (app i x y z w 1) (app i x y z w 2) (app i x y z w 3) 0 = x ∧
    app m (app i x y z w 0) (app i x y z w 1) (app i x y z w 2) (app i x y z w 3) 1 = y ∧
    app m (app i x y z w 0) (app i x y z w 1) (app i x y z w 2) (app i x y z w 3) 2 = z ∧
    app m (app i x y z w 0) (app i x y z w 1) (app i x y z w 2) (app i x y z w 3) 3 = w) ∧
  app i (app m x y z w 0) (app m x y z w 1) (app m x y z w 2) (app m x y z w 3) 0 = x ∧
    app i (app m x y z w 0) (app m x y z w 1) (app m x y z w 2) (app m x y z w 3) 1 = y ∧
    app i (app m x y z w 0) (app m x y z w 1) (app m x y z w 2) (app m x y z w 3) 2 = z ∧
    app i (app m x y z w 0) (app m x y z w 1) (app m x y z w 2) (app m x y z w 3) 3 = w

theorem inverse_inv {m i : Mat K} (h : inverse m = some i) : Inv m i := by
  have hd : det m ≠ 0 := by
    intro e
    rw [inverse, if_pos e] at h
    cases h
  rw [inverse, if_neg hd] at h
  injection h with h
  have hi : ∀ x y z w r, app i x y z w r = app (mat (adjugate m)) x y z w r * (1 / det m) := by
    intro x y z w r
    rw [← h]
    exact app_smul (mat (adjugate m)) _ x y z w r
  have lin : ∀ (a b c d k : K) (r : Nat), app m (a * k) (b * k) (c * k) (d * k) r = app m a b c d r * k := by
    intro a b c d k r; simp only [app]; ring
  intro x y z w
  obtain ⟨a0, a1, a2, a3⟩ := mul_adj m x y z w
  obtain ⟨b0, b1, b2, b3⟩ := adj_mul m x y z w
  simp only [hi, lin, a0, a1, a2, a3, b0, b1, b2, b3]
  have k : ∀ v : K, det m * v * (1 / det m) = v := by
    intro v; field_simp
  simp only [k]
  exact ⟨⟨trivial, trivial, trivial, trivial⟩, trivial, trivial, trivial, trivial⟩

theorem inverse_none {m : Mat K} : inverse m = none ↔ det m = 0 := by
  unfold inverse
  by_cases h : det m = 0
  · rw [if_pos h]; exact ⟨fun _ => h, fun _ => rfl⟩
  · rw [if_neg h]; exact ⟨fun e => (by cases e), fun e => absurd e h⟩

omit [LinearOrder K] in
theorem frame_app (s t : TexRow K) (p : Plane K) (x y z w : K) :
    app (frame s t p) x y z w 0 = x * s.vec.x + y * s.vec.y + z * s.vec.z + w * s.ofs ∧
    app (frame s t p) x y z w 1 = x * t.vec.x + y * t.vec.y + z * t.vec.z + w * t.ofs ∧
    app (frame s t p) x y z w 2 = x * p.normal.x + y * p.normal.y + z * p.normal.z - w * p.dist ∧
    app (frame s t p) x y z w 3 = w := by
  simp only [app, frame, mat, List.getD_cons_zero, List.getD_cons_succ, Nat.zero_add, Nat.reduceAdd]
  refine ⟨?_, ?_, ?_, ?_⟩ <;> ring

omit [LinearOrder K] in
theorem frame_det (s t : TexRow K) (p : Plane K) : det (frame s t p) = Spec.triple s.vec t.vec p.normal := by
  simp only [det, adjugate, frame, mat, List.getD_cons_zero, List.getD_cons_succ, Spec.triple]
  ring

/-! Bounds. -/

omit [Field K] in
theorem fold_bounds : ∀ (l : List K) (b : K × K), b.1 ≤ b.2 →
    let r := l.foldl (fun b y => (min b.1 y, max b.2 y)) b
    r.1 ≤ b.1 ∧ b.2 ≤ r.2 ∧ (∀ x ∈ l, r.1 ≤ x ∧ x ≤ r.2) ∧ (r.1 = b.1 ∨ r.1 ∈ l) ∧ (r.2 = b.2 ∨ r.2 ∈ l)
  | [], b, hb => ⟨le_refl _, le_refl _, fun x hx => absurd hx List.not_mem_nil, .inl rfl, .inl rfl⟩
  | y :: ys, b, hb => by
    obtain ⟨h1, h2, h3, h4, h5⟩ := fold_bounds ys (min b.1 y, max b.2 y)
      (le_trans (min_le_left _ _) (le_trans hb (le_max_left _ _)))
    simp only [List.foldl_cons] at *
    refine ⟨le_trans h1 (min_le_left _ _), le_trans (le_max_left _ _) h2, ?_, ?_, ?_⟩
    · intro x hx
      rcases List.mem_cons.1 hx with e | hx
      · rw [e]; exact ⟨le_trans h1 (min_le_right _ _), le_trans (le_max_right _ _) h2⟩
      · exact h3 x hx
    · rcases h4 with e | e
      · rw [e]
        rcases min_choice b.1 y with m | m
        · left; exact m
        · right; rw [m]; exact List.mem_cons_self
      · right; exact List.mem_cons_of_mem _ e
    · rcases h5 with e | e
      · rw [e]
        rcases max_choice b.2 y with m | m
        · left; exact m
        · right; rw [m]; exact List.mem_cons_self
      · right; exact List.mem_cons_of_mem _ e

omit [Field K] in
theorem bounds1_spec {l : List K} {b : K × K} (h : bounds1 l = some b) :
    b.1 ∈ l ∧ b.2 ∈ l ∧ ∀ x ∈ l, b.1 ≤ x ∧ x ≤ b.2 := by
  cases l with
  | nil => cases h
  | cons x xs =>
    simp only [bounds1, Option.some.injEq] at h
    obtain ⟨h1, h2, h3, h4, h5⟩ := fold_bounds xs (x, x) (le_refl _)
    rw [h] at h1 h2 h3 h4 h5
    refine ⟨?_, ?_, ?_⟩
    · rcases h4 with e | e
      · rw [e]; exact List.mem_cons_self
      · exact List.mem_cons_of_mem _ e
    · rcases h5 with e | e
      · rw [e]; exact List.mem_cons_self
      · exact List.mem_cons_of_mem _ e
    · intro y hy
      rcases List.mem_cons.1 hy with e | hy
      · rw [e]; exact ⟨h1, h2⟩
      · exact h3 y hy

omit [Field K] in
theorem bounds1_range {pts : List (Vec K)} {g : Vec K → K} {b : K × K} (h : bounds1 (pts.map g) = some b) :
    Spec.Range pts g b.1 b.2 := by
  obtain ⟨h1, h2, h3⟩ := bounds1_spec h
  obtain ⟨p, hp, e1⟩ := List.mem_map.1 h1
  obtain ⟨q, hq, e2⟩ := List.mem_map.1 h2
  exact ⟨⟨p, hp, e1⟩, ⟨q, hq, e2⟩, fun r hr => h3 _ (List.mem_map.2 ⟨r, hr, rfl⟩)⟩

end

section
variable {K : Type} [Field K] [LinearOrder K] [IsStrictOrderedRing K]

/-- A value that is affine stays between bounds on the whole face. -/
theorem face_affine {pts : List (Vec K)} {g : Vec K → K} {lo hi : K}
    (hg : ∀ t p q, g ⟨(1 - t) * p.x + t * q.x, (1 - t) * p.y + t * q.y, (1 - t) * p.z + t * q.z⟩ =
      (1 - t) * g p + t * g q)
    (h : ∀ p ∈ pts, lo ≤ g p ∧ g p ≤ hi) {p : Vec K} (hp : Spec.InFace pts p) : lo ≤ g p ∧ g p ≤ hi := by
  induction hp with
  | corner hm => exact h _ hm
  | between t h0 h1 _ _ ih1 ih2 =>
    rw [hg]
    have a : 0 ≤ 1 - t := by linarith
    constructor
    · nlinarith [mul_le_mul_of_nonneg_left ih1.1 a, mul_le_mul_of_nonneg_left ih2.1 h0]
    · nlinarith [mul_le_mul_of_nonneg_left ih1.2 a, mul_le_mul_of_nonneg_left ih2.2 h0]

theorem toInt_int [FloorRing K] {n k : Int} (h : toInt (n : K) = .ok k) : k = n := by
  unfold toInt at h
  simp only [Int.floor_intCast, Int.ceil_intCast, ite_self] at h
  by_cases c : -2 ^ 31 ≤ n ∧ n < 2 ^ 31
  · rw [if_pos c] at h; injection h with h; exact h.symm
  · rw [if_neg c] at h; cases h

theorem axis_ok [FloorRing K] {b : Option (K × K)} {r : Int × Int} (h : axisExtent b = .ok r) :
    ∃ c, b = some c ∧ r.1 = ⌊c.1⌋ ∧ r.2 = ⌈c.2⌉ - ⌊c.1⌋ := by
  cases b with
  | none => cases h
  | some c =>
    simp only [axisExtent, Outcome.bind_eq_ok] at h
    obtain ⟨lo, h1, n, h2, h3⟩ := h
    have e2 : toInt (((⌈c.2⌉ - ⌊c.1⌋ : Int)) : K) = .ok n := by rw [Int.cast_sub]; exact h2
    have h3' : Outcome.ok (lo, n) = Outcome.ok r := h3
    injection h3' with h3'
    rw [← h3']
    exact ⟨c, rfl, toInt_int h1, toInt_int e2⟩


/-- What all extents share: the third row of the matrix is the plane, the fourth is the unit row, and the way back is an
inverse. -/
structure Rep (f : Face K) (e : Ext K) : Prop where
  plane : ∀ x y z w, app e.toLM x y z w 2 =
    x * f.plane.normal.x + y * f.plane.normal.y + z * f.plane.normal.z - w * f.plane.dist
  unit : ∀ x y z w, app e.toLM x y z w 3 = w
  back : ∀ m, e.toWorld = some m → Inv e.toLM m

omit [LinearOrder K] [IsStrictOrderedRing K] in
theorem inv_mul {A a B b : Mat K} (hA : Inv A a) (hB : Inv B b) : Inv (mul A B) (mul b a) := by
  intro x y z w
  simp only [app_mul _ _ _ _ _ _ (show 0 < 4 by omega), app_mul _ _ _ _ _ _ (show 1 < 4 by omega),
    app_mul _ _ _ _ _ _ (show 2 < 4 by omega), app_mul _ _ _ _ _ _ (show 3 < 4 by omega)]
  obtain ⟨a0, a1, a2, a3⟩ := (hB (app a x y z w 0) (app a x y z w 1) (app a x y z w 2) (app a x y z w 3)).1
  obtain ⟨c0, c1, c2, c3⟩ := (hA x y z w).1
  obtain ⟨b0, b1, b2, b3⟩ := (hA (app B x y z w 0) (app B x y z w 1) (app B x y z w 2) (app B x y z w 3)).2
  obtain ⟨d0, d1, d2, d3⟩ := (hB x y z w).2
  simp only [a0, a1, a2, a3, b0, b1, b2, b3]
  exact ⟨⟨c0, c1, c2, c3⟩, d0, d1, d2, d3⟩

omit [LinearOrder K] [IsStrictOrderedRing K] in
theorem inv_symm {m i : Mat K} (h : Inv m i) : Inv i m := fun x y z w => ⟨(h x y z w).2, (h x y z w).1⟩

theorem lmToTex_app (shift : K) (s0 t0 : Int) (x y z w : K) :
    app (lmToTex shift s0 t0) x y z w 0 = shift * x + (s0 : K) * shift * w ∧
    app (lmToTex shift s0 t0) x y z w 1 = shift * y + (t0 : K) * shift * w ∧
    app (lmToTex shift s0 t0) x y z w 2 = z ∧ app (lmToTex shift s0 t0) x y z w 3 = w := by
  simp only [app, lmToTex, mat, List.getD_cons_zero, List.getD_cons_succ, Nat.zero_add, Nat.reduceAdd]
  refine ⟨?_, ?_, ?_, ?_⟩ <;> ring

/-- The way from texture coordinates to lightmap coordinates. -/
theorem texToLM_app {shift : K} (hs : shift ≠ 0) {s0 t0 : Int} {i : Mat K} (hi : inverse (lmToTex shift s0 t0) = some i)
    (x y z w : K) :
    app i x y z w 0 = x / shift - s0 * w ∧ app i x y z w 1 = y / shift - t0 * w ∧
    app i x y z w 2 = z ∧ app i x y z w 3 = w := by
  obtain ⟨h0, h1, h2, h3⟩ := (inverse_inv hi x y z w).1
  obtain ⟨l0, l1, l2, l3⟩ := lmToTex_app shift s0 t0 (app i x y z w 0) (app i x y z w 1) (app i x y z w 2)
    (app i x y z w 3)
  rw [l0] at h0
  rw [l1] at h1
  rw [l2] at h2
  rw [l3] at h3
  refine ⟨?_, ?_, h2, h3⟩
  · rw [h3] at h0
    have k : x / shift = app i x y z w 0 + s0 * w := by
      rw [div_eq_iff hs]; linear_combination -h0
    rw [k]; ring
  · rw [h3] at h1
    have k : y / shift = app i x y z w 1 + t0 * w := by
      rw [div_eq_iff hs]; linear_combination -h1
    rw [k]; ring

/-- What the constructor for a scale computes. -/
theorem vanilla_ok [FloorRing K] {f : Face K} {shift : K} {e : Ext K} (h : vanilla f shift = .ok e) :
    ∃ a b sp i, axisExtent (scaledBounds shift f.s f) = .ok a ∧ axisExtent (scaledBounds shift f.t f) = .ok b ∧
      sphere f = some sp ∧ inverse (lmToTex shift a.1 b.1) = some i ∧ e.w = a.2 ∧ e.h = b.2 ∧
      e.toLM = mul i (worldToTex f) ∧ e.toWorld = (texToWorld f).map (fun m => mul m (lmToTex shift a.1 b.1)) ∧
      e.origin = sp.1 ∧ e.half = sp.2 := by
  simp only [vanilla, Outcome.bind_eq_ok] at h
  obtain ⟨a, ha, b, hb, h⟩ := h
  cases hsp : sphere f with
  | none => rw [hsp] at h; cases h
  | some sp =>
    cases hi : inverse (lmToTex shift a.1 b.1) with
    | none => rw [hsp, hi] at h; cases h
    | some i =>
      rw [hsp, hi] at h
      have h' : Outcome.ok _ = Outcome.ok e := h
      injection h' with h'
      rw [← h']
      exact ⟨a, b, sp, i, ha, hb, rfl, hi, rfl, rfl, rfl, rfl, rfl, rfl⟩

theorem decoupled_ok [FloorRing K] {f : Face K} {units : K} {e : Ext K} (h : decoupled f units = .ok e) :
    units ≠ 0 ∧ ∃ a b sp,
      axisExtent (bounds1 (f.points.map fun p => dot (scale (1 / units) (tangents (snapped f.plane.normal)).1) p)) = .ok a ∧
      axisExtent (bounds1 (f.points.map fun p => dot (scale (1 / units) (tangents (snapped f.plane.normal)).2) p)) = .ok b ∧
      sphere f = some sp ∧ e.w = a.2 ∧ e.h = b.2 ∧
      e.toLM = frame ⟨scale (1 / units) (tangents (snapped f.plane.normal)).1, -(a.1 : K)⟩
        ⟨scale (1 / units) (tangents (snapped f.plane.normal)).2, -(b.1 : K)⟩ f.plane ∧
      e.toWorld = inverse e.toLM ∧ e.origin = sp.1 ∧ e.half = sp.2 := by
  unfold decoupled at h
  by_cases hu : units = 0
  · rw [if_pos hu] at h; cases h
  rw [if_neg hu] at h
  simp only [Outcome.bind_eq_ok] at h
  obtain ⟨a, ha, b, hb, h⟩ := h
  cases hsp : sphere f with
  | none => rw [hsp] at h; cases h
  | some sp =>
    rw [hsp] at h
    have h' : Outcome.ok _ = Outcome.ok e := h
    injection h' with h'
    rw [← h']
    exact ⟨hu, a, b, sp, ha, hb, rfl, rfl, rfl, rfl, rfl, rfl, rfl⟩

theorem stored_ok {f : Face K} {lw lh : Nat} {s t : TexRow K} {e : Ext K} (h : stored f lw lh s t = .ok e) :
    0 < lw ∧ 0 < lh ∧ ∃ sp, sphere f = some sp ∧ e.w = lw - 1 ∧ e.h = lh - 1 ∧ e.toLM = frame s t f.plane ∧
      e.toWorld = inverse (frame s t f.plane) ∧ e.origin = sp.1 ∧ e.half = sp.2 := by
  unfold stored at h
  by_cases c : 0 < lw ∧ 0 < lh
  · rw [if_pos c] at h
    cases hsp : sphere f with
    | none => rw [hsp] at h; cases h
    | some sp =>
      rw [hsp] at h
      injection h with h
      rw [← h]
      exact ⟨c.1, c.2, sp, rfl, rfl, rfl, rfl, rfl, rfl, rfl⟩
  · rw [if_neg c] at h; cases h

theorem rep_frame {f : Face K} {e : Ext K} {s t : TexRow K} (h1 : e.toLM = frame s t f.plane)
    (h2 : e.toWorld = inverse e.toLM) : Rep f e := by
  refine ⟨?_, ?_, ?_⟩
  · intro x y z w
    rw [h1]; exact (frame_app s t f.plane x y z w).2.2.1
  · intro x y z w
    rw [h1]; exact (frame_app s t f.plane x y z w).2.2.2
  · intro m hm
    rw [h2] at hm
    exact inverse_inv hm

theorem vanilla_app [FloorRing K] {f : Face K} {shift : K} (hs : shift ≠ 0) {i : Mat K} {s0 t0 : Int}
    (hi : inverse (lmToTex shift s0 t0) = some i) (x y z w : K) :
    app (mul i (worldToTex f)) x y z w 0 =
      (x * f.s.vec.x + y * f.s.vec.y + z * f.s.vec.z + w * f.s.ofs) / shift - s0 * w ∧
    app (mul i (worldToTex f)) x y z w 1 =
      (x * f.t.vec.x + y * f.t.vec.y + z * f.t.vec.z + w * f.t.ofs) / shift - t0 * w ∧
    app (mul i (worldToTex f)) x y z w 2 =
      x * f.plane.normal.x + y * f.plane.normal.y + z * f.plane.normal.z - w * f.plane.dist ∧
    app (mul i (worldToTex f)) x y z w 3 = w := by
  obtain ⟨f0, f1, f2, f3⟩ := frame_app f.s f.t f.plane x y z w
  obtain ⟨g0, g1, g2, g3⟩ := texToLM_app hs hi (app (worldToTex f) x y z w 0) (app (worldToTex f) x y z w 1)
    (app (worldToTex f) x y z w 2) (app (worldToTex f) x y z w 3)
  rw [app_mul _ _ _ _ _ _ (show 0 < 4 by omega), app_mul _ _ _ _ _ _ (show 1 < 4 by omega),
    app_mul _ _ _ _ _ _ (show 2 < 4 by omega), app_mul _ _ _ _ _ _ (show 3 < 4 by omega), g0, g1, g2, g3]
  unfold worldToTex
  rw [f0, f1, f2, f3]
  exact ⟨rfl, rfl, rfl, rfl⟩

theorem vanilla_rep [FloorRing K] {f : Face K} {shift : K} (hs : shift ≠ 0) {e : Ext K} (h : vanilla f shift = .ok e) :
    Rep f e := by
  obtain ⟨a, b, sp, i, _, _, _, hi, _, _, hl, hw, _, _⟩ := vanilla_ok h
  refine ⟨?_, ?_, ?_⟩
  · intro x y z w
    rw [hl]; exact (vanilla_app hs hi x y z w).2.2.1
  · intro x y z w
    rw [hl]; exact (vanilla_app hs hi x y z w).2.2.2
  · intro m hm
    rw [hw] at hm
    cases ht : texToWorld f with
    | none => rw [ht] at hm; cases hm
    | some m' =>
      rw [ht] at hm
      injection hm with hm
      rw [hl, ← hm]
      exact inv_mul (inv_symm (inverse_inv hi)) (inverse_inv ht)

theorem measured_rep [FloorRing K] {f : Face K} {e : Ext K} (h : Spec.Measured f e) : Rep f e := by
  rcases h with ⟨shift, hs, h⟩ | ⟨units, _, h⟩
  · exact vanilla_rep (ne_of_gt hs) h
  · obtain ⟨_, a, b, sp, _, _, _, _, _, hl, hw, _, _⟩ := decoupled_ok h
    exact rep_frame hl hw

theorem stored_rep {f : Face K} {lw lh : Nat} {s t : TexRow K} {e : Ext K} (h : stored f lw lh s t = .ok e) :
    Rep f e := by
  obtain ⟨_, _, sp, _, _, _, hl, hw, _, _⟩ := stored_ok h
  exact rep_frame hl (by rw [hl]; exact hw)

theorem rep_world {f : Face K} {e : Ext K} (r : Rep f e) {s t : K} {p : Vec K} (h : e.world s t = some p) :
    Spec.On f.plane p ∧ e.lmCoord p = (s, t) := by
  unfold Ext.world at h
  cases hm : e.toWorld with
  | none => rw [hm] at h; cases h
  | some m =>
    rw [hm] at h
    simp only [Option.map_some, Option.some.injEq] at h
    obtain ⟨h0, h1, h2, h3⟩ := (r.back m hm s t 0 1).1
    rw [r.unit] at h3
    rw [h3] at h0 h1 h2
    rw [r.plane] at h2
    rw [← h]
    unfold Spec.On Ext.lmCoord
    refine ⟨?_, ?_⟩
    · simp only
      linarith
    · simp only [h0, h1]

theorem rep_back {f : Face K} {e : Ext K} (r : Rep f e) {p : Vec K} (hp : Spec.On f.plane p)
    (hw : e.toWorld ≠ none) : e.world (e.lmCoord p).1 (e.lmCoord p).2 = some p := by
  unfold Ext.world
  cases hm : e.toWorld with
  | none => exact absurd hm hw
  | some m =>
    obtain ⟨h0, h1, h2, h3⟩ := (r.back m hm p.x p.y p.z 1).2
    have e2 : app e.toLM p.x p.y p.z 1 2 = 0 := by
      rw [r.plane]
      unfold Spec.On at hp
      linarith
    rw [e2, r.unit] at h0 h1 h2
    simp only [Option.map_some, Ext.lmCoord, h0, h1, h2]

theorem world_none {e : Ext K} {s t : K} : e.world s t = none ↔ e.toWorld = none := by
  unfold Ext.world
  cases e.toWorld <;> simp

/-! The dominant axis and the tangents. -/

theorem largest_spec (v : Vec K) (h : ¬ (v.x = 0 ∧ v.y = 0 ∧ v.z = 0)) :
    Spec.Dominant v (largest v) ∧ comp v (largest v) ≠ 0 := by
  have px : 0 < |v.x| ∨ v.x = 0 := by
    rcases eq_or_ne v.x 0 with e | e
    · right; exact e
    · left; exact abs_pos.2 e
  have nx := abs_nonneg v.x
  have ny := abs_nonneg v.y
  have nz := abs_nonneg v.z
  have m : (if |v.x| > 0 then |v.x| else 0) = |v.x| := by
    by_cases c : |v.x| > 0
    · rw [if_pos c]
    · rw [if_neg c]; exact le_antisymm nx (not_lt.1 c)
  simp only [largest, m, ite_self]
  by_cases hy : |v.y| > |v.x|
  · rw [if_pos hy, if_pos hy]
    by_cases hz : |v.z| > |v.y|
    · rw [if_pos hz]
      refine ⟨.inr (.inr ⟨rfl, by linarith, by linarith⟩), ?_⟩
      have e : comp v 2 = v.z := rfl
      rw [e]
      exact abs_pos.1 (by linarith)
    · rw [if_neg hz]
      refine ⟨.inr (.inl ⟨rfl, by linarith, by linarith⟩), ?_⟩
      have e : comp v 1 = v.y := rfl
      rw [e]
      exact abs_pos.1 (by linarith)
  · rw [if_neg hy, if_neg hy]
    by_cases hz : |v.z| > |v.x|
    · rw [if_pos hz]
      refine ⟨.inr (.inr ⟨rfl, by linarith, by linarith⟩), ?_⟩
      have e : comp v 2 = v.z := rfl
      rw [e]
      exact abs_pos.1 (by linarith)
    · rw [if_neg hz]
      refine ⟨.inl ⟨rfl, by linarith, by linarith⟩, ?_⟩
      intro e
      have e' : comp v 0 = v.x := rfl
      rw [e'] at e
      rw [e, abs_zero] at hy hz
      exact h ⟨e, abs_nonpos_iff.1 (not_lt.1 hy), abs_nonpos_iff.1 (not_lt.1 hz)⟩

theorem largest_axis (a : Nat) (ha : a < 3) (x : K) (hx : x ≠ 0) : largest (axisVec a x) = a := by
  have p : 0 < |x| := abs_pos.2 hx
  have q : ¬ |x| < 0 := not_lt.2 (abs_nonneg x)
  interval_cases a <;> simp [largest, axisVec, p, q]

/-- The tangents of the snapped normal, in all cases. -/
theorem tangents_snapped (n : Vec K) :
    tangents (snapped n) =
      (if largest n = 0 then (if n.x > 0 then (⟨0, 0, 1⟩, ⟨0, -1, 0⟩) else (⟨0, 1, 0⟩, ⟨0, 0, -1⟩))
       else if largest n = 1 then (if n.y > 0 then (⟨1, 0, 0⟩, ⟨0, 0, -1⟩) else (⟨0, 0, 1⟩, ⟨-1, 0, 0⟩))
       else (if n.z > 0 then (⟨0, 1, 0⟩, ⟨-1, 0, 0⟩) else (⟨1, 0, 0⟩, ⟨0, -1, 0⟩))) := by
  have hl : largest n < 3 := by
    have k : ∀ (c : Prop) [Decidable c] (a b : Nat), a < 3 → b < 3 → (if c then a else b) < 3 := by
      intro c _ a b ha hb
      by_cases h : c
      · rw [if_pos h]; exact ha
      · rw [if_neg h]; exact hb
    unfold largest
    simp only [ite_self]
    exact k _ _ _ (by omega) (k _ _ _ (by omega) (by omega))
  unfold tangents snapped
  have k : ∀ c : Prop, [Decidable c] → (if c then (1 : K) else -1) ≠ 0 := by
    intro c _
    by_cases h : c
    · rw [if_pos h]; exact one_ne_zero
    · rw [if_neg h]; exact neg_ne_zero.2 one_ne_zero
  have hax : largest (axisVec (largest n) (if comp n (largest n) > 0 then (1 : K) else -1)) = largest n :=
    largest_axis _ hl _ (k _)
  simp only [hax]
  generalize largest n = a at *
  interval_cases a
  · by_cases c : n.x > 0
    · simp [axisVec, comp, crs, dot, c]
    · simp [axisVec, comp, crs, dot, c]
  · by_cases c : n.y > 0
    · simp [axisVec, comp, crs, dot, c]
    · simp [axisVec, comp, crs, dot, c]
  · by_cases c : n.z > 0
    · simp [axisVec, comp, crs, dot, c]
    · simp [axisVec, comp, crs, dot, c]

end

/-- For examples: the extents exist and have a property. -/
def check {K : Type} (o : Outcome (Ext K)) (p : Ext K → Bool) : Bool :=
  match o with
  | .ok e => p e
  | _ => false

theorem check_ok {K : Type} {o : Outcome (Ext K)} {p : Ext K → Bool} (h : check o p = true) :
    ∃ e, o = .ok e ∧ p e = true := by
  cases o with
  | ok e => exact ⟨e, rfl, h⟩
  | error => cases h
  | ub => cases h

end Verif.Extents
