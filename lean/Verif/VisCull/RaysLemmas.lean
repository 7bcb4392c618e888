import Verif.VisCull.RaysSpec
import Verif.Geom.AabbProps
import Mathlib.Tactic.Linarith
import Mathlib.Tactic.FieldSimp
import Mathlib.Tactic.Positivity

namespace Verif.VisCull

open Verif.Geom Verif.Geom.Spec Verif.VisCull.Spec

theorem sphere_unit {u1 u2 : ℝ} (h0 : 0 ≤ u2) (h1 : u2 ≤ 1) :
    sphereVec u1 u2 0 ^ 2 + sphereVec u1 u2 1 ^ 2 + sphereVec u1 u2 2 ^ 2 = 1 := by
  have hs : 0 ≤ 1 - (2 * u2 - 1) * (2 * u2 - 1) := by nlinarith
  have e := Real.sq_sqrt hs
  have t := Real.cos_sq_add_sin_sq (u1 * 2 * Real.pi)
  simp only [sphereVec, Matrix.cons_val_zero, Matrix.cons_val_one, Matrix.cons_val]
  have : (Real.sqrt (1 - (2 * u2 - 1) * (2 * u2 - 1)) * Real.cos (u1 * 2 * Real.pi)) ^ 2 +
      (Real.sqrt (1 - (2 * u2 - 1) * (2 * u2 - 1)) * Real.sin (u1 * 2 * Real.pi)) ^ 2 =
      Real.sqrt (1 - (2 * u2 - 1) * (2 * u2 - 1)) ^ 2 * (Real.cos (u1 * 2 * Real.pi) ^ 2 + Real.sin (u1 * 2 * Real.pi) ^ 2) := by
    ring
  rw [this, e, t]
  ring

theorem abs_le_of_unit {d : Pt ℝ 3} (h : d 0 ^ 2 + d 1 ^ 2 + d 2 ^ 2 = 1) (i : Fin 3) : |d i| ≤ 1 := by
  rw [← sq_le_one_iff_abs_le_one]
  fin_cases i
  · simp only [Fin.zero_eta]; nlinarith [sq_nonneg (d 1), sq_nonneg (d 2)]
  · simp only [Fin.mk_one]; nlinarith [sq_nonneg (d 0), sq_nonneg (d 2)]
  · simp only [Fin.reduceFinMk]; nlinarith [sq_nonneg (d 0), sq_nonneg (d 1)]

theorem spherePoint_ok {u1 u2 : ℝ} (h1 : 0 ≤ u1 ∧ u1 ≤ 1) (h2 : 0 ≤ u2 ∧ u2 ≤ 1) :
    spherePoint u1 u2 = .ok (sphereVec u1 u2) := by
  unfold spherePoint
  rw [if_neg (by simpa using h1), if_neg (by simpa using h2), if_pos]
  intro i
  have := abs_le.mp (abs_le_of_unit (sphere_unit (u1 := u1) h2.1 h2.2) i)
  constructor <;> norm_num <;> linarith

/-- The direction of the ray with the given numbers. -/
noncomputable def dirOf (x y : Nat) : Pt ℝ 3 := sphereVec ((x : ℝ) / 31) ((y : ℝ) / 31)

theorem unit_range {x : Nat} (h : x < 32) : (0 : ℝ) ≤ (x : ℝ) / 31 ∧ (x : ℝ) / 31 ≤ 1 := by
  have : (x : ℝ) ≤ 31 := by exact_mod_cast Nat.lt_succ_iff.mp h
  constructor
  · positivity
  · rw [div_le_one (by norm_num)]; exact this

theorem probeRow_ok {x : Nat} (hx : x < 32) : ∀ ys : List Nat, (∀ y ∈ ys, y < 32) → probeRow x ys = .ok (ys.map (dirOf x)) := by
  intro ys
  induction ys with
  | nil => intro _; rfl
  | cons y ys ih =>
    intro h
    simp only [probeRow, spherePoint_ok (unit_range hx) (unit_range (h y (by simp))), ih (fun z hz => h z (by simp [hz])),
      Outcome.ok_bind, List.map_cons, dirOf]

theorem probeRows_ok : ∀ xs : List Nat, (∀ x ∈ xs, x < 32) →
    probeRows xs = .ok (xs.flatMap fun x => (List.range 32).map (dirOf x)) := by
  intro xs
  induction xs with
  | nil => intro _; rfl
  | cons x xs ih =>
    intro h
    simp only [probeRows, probeRow_ok (h x (by simp)) (List.range 32) (by simp), ih (fun z hz => h z (by simp [hz])),
      Outcome.ok_bind, List.flatMap_cons]

/-- The directions of all rays. -/
noncomputable def allDirs : List (Pt ℝ 3) := (List.range 32).flatMap fun x => (List.range 32).map (dirOf x)

theorem probes_ok : probes = .ok allDirs := probeRows_ok _ (by simp)

theorem mem_allDirs {d : Pt ℝ 3} : d ∈ allDirs ↔ ∃ x y : Nat, x < 32 ∧ y < 32 ∧ d = dirOf x y := by
  simp only [allDirs, List.mem_flatMap, List.mem_range, List.mem_map]
  constructor
  · rintro ⟨x, hx, y, hy, e⟩; exact ⟨x, y, hx, hy, e.symm⟩
  · rintro ⟨x, y, hx, hy, e⟩; exact ⟨x, hx, y, hy, e.symm⟩

theorem allDirs_tried {d : Pt ℝ 3} : d ∈ allDirs ↔ Tried d := by
  rw [mem_allDirs]
  constructor
  · rintro ⟨x, y, hx, hy, rfl⟩
    have hr := unit_range hy
    refine ⟨x, y, hx, hy, by simp [dirOf, sphereVec], sphere_unit hr.1 hr.2, ?_, ?_⟩
    · simp only [dirOf, sphereVec, Matrix.cons_val_zero, Matrix.cons_val]
      rw [show (x : ℝ) / 31 * 2 * Real.pi = 2 * Real.pi * x / 31 by ring, sq]
    · simp only [dirOf, sphereVec, Matrix.cons_val_one, Matrix.cons_val]
      rw [show (x : ℝ) / 31 * 2 * Real.pi = 2 * Real.pi * x / 31 by ring, sq]
  · rintro ⟨x, y, hx, hy, h2, -, h0, h1⟩
    refine ⟨x, y, hx, hy, ?_⟩
    rw [h2] at h0 h1
    funext i
    fin_cases i
    · simp only [dirOf, sphereVec, Fin.zero_eta, Matrix.cons_val_zero]
      rw [show (x : ℝ) / 31 * 2 * Real.pi = 2 * Real.pi * x / 31 by ring, h0, sq]
    · simp only [dirOf, sphereVec, Fin.mk_one, Matrix.cons_val_one, Matrix.cons_val_zero]
      rw [show (x : ℝ) / 31 * 2 * Real.pi = 2 * Real.pi * x / 31 by ring, h1, sq]
    · simp [dirOf, sphereVec, h2]

theorem fold_tight (f : Pt ℝ 3 → Pt ℝ 3) : ∀ (ds : List (Pt ℝ 3)) (s : Pt ℝ 3 → Prop) (b : Box ℝ 3), Tight s b →
    Tight (fun q => s q ∨ ∃ d ∈ ds, q = f d) (ds.foldl (fun b d => b.expandInPlace (f d)) b) := by
  intro ds
  induction ds with
  | nil => intro s b h; simpa using h
  | cons d ds ih =>
    intro s b h
    have h' : Tight (fun q => s q ∨ q = f d) (b.expandInPlace (f d)) := by
      obtain ⟨hp, hin, hleast⟩ := h
      refine ⟨fun i => (min_le_right _ _).trans (le_max_right _ _), ?_, ?_⟩
      · rintro q (hq | rfl) i
        · exact ⟨(min_le_left _ _).trans (hin q hq i).1, (hin q hq i).2.trans (le_max_left _ _)⟩
        · exact ⟨min_le_right _ _, le_max_right _ _⟩
      · intro c hc q hq i
        have hm : Inside c b.mins := hleast c (fun q hq => hc q (Or.inl hq)) b.mins (fun j => ⟨le_refl _, hp j⟩)
        have hM : Inside c b.maxs := hleast c (fun q hq => hc q (Or.inl hq)) b.maxs (fun j => ⟨hp j, le_refl _⟩)
        have hf := hc (f d) (Or.inr rfl)
        exact ⟨(le_min (hm i).1 (hf i).1).trans (hq i).1, (hq i).2.trans (max_le (hM i).2 (hf i).2)⟩
    have := ih _ _ h'
    simp only [List.foldl_cons]
    convert this using 2 with q
    simp only [List.mem_cons, exists_eq_or_imp, or_assoc]

theorem ofPoint_tight (p : Pt ℝ 3) : Tight (fun q => q = p) (Box.ofPoint p) := by
  have e : Box.ofPoint p = ⟨p, p⟩ := Box.mk'_eq fun i => le_refl _
  rw [e]
  refine ⟨fun i => le_refl _, fun q hq i => by subst hq; exact ⟨le_refl _, le_refl _⟩, fun c hc q hq => ?_⟩
  have : q = p := funext fun i => le_antisymm (hq i).2 (hq i).1
  rw [this]
  exact hc p rfl

theorem estimate_spec (hit : Pt ℝ 3 → Pt ℝ 3 → ℝ) (p : Pt ℝ 3) :
    ∃ t b, estimate hit p = .ok b ∧ Tight (Seen hit p) t ∧ Widened t b := by
  have ht := fold_tight (meets hit p) allDirs _ _ (ofPoint_tight p)
  have hs : (fun q => q = p ∨ ∃ d ∈ allDirs, q = meets hit p d) = Seen hit p := by
    funext q
    simp only [Seen, allDirs_tried, eq_iff_iff]
    refine or_congr Iff.rfl (exists_congr fun d => and_congr Iff.rfl ?_)
    rw [funext_iff]
    simp only [meets, mul_comm]
  rw [hs] at ht
  refine ⟨_, (allDirs.foldl (fun b d => b.expandInPlace (meets hit p d)) (Box.ofPoint p)).grow fun i =>
    ((allDirs.foldl (fun b d => b.expandInPlace (meets hit p d)) (Box.ofPoint p)).maxs i -
      (allDirs.foldl (fun b d => b.expandInPlace (meets hit p d)) (Box.ofPoint p)).mins i) * 0.25, ?_, ht, ?_⟩
  · unfold estimate
    rw [probes_ok]
    rfl
  · intro i
    set t := allDirs.foldl (fun b d => b.expandInPlace (meets hit p d)) (Box.ofPoint p) with htdef
    have hp := ht.1
    have e : (t.grow fun i => (t.maxs i - t.mins i) * 0.25) =
        ⟨fun i => t.mins i - (t.maxs i - t.mins i) * 0.25, fun i => t.maxs i + (t.maxs i - t.mins i) * 0.25⟩ :=
      Box.mk'_eq fun j => by have := hp j; norm_num; linarith
    rw [e]
    constructor <;> simp only <;> norm_num <;> ring

theorem widened_inside {t b : Box ℝ 3} (hp : Proper t) (hw : Widened t b) {q : Pt ℝ 3} (hq : Inside t q) : Inside b q := by
  intro i
  have := hp i
  have := hq i
  have := hw i
  constructor <;> linarith

theorem not_disjoint {a b : Box ℝ 3} {q : Pt ℝ 3} {eps : ℝ} (he : 0 ≤ eps) (ha : Inside a q) (hb : Inside b q) :
    a.disjoint b eps = false := by
  have : ¬ a.disjoint b eps = true := by
    rw [Box.disjoint_iff he (fun i => (ha i).1.trans (ha i).2) (fun i => (hb i).1.trans (hb i).2)]
    exact fun h => h ⟨q, q, ha, hb, fun i => by simpa using he⟩
  simpa using this

theorem tried_slope {d : Pt ℝ 3} (h : Tried d) : 1 / 31 ≤ |d 2| := by
  obtain ⟨x, y, -, hy, e, -⟩ := h
  rw [e]
  rcases Nat.lt_or_ge y 16 with h | h
  · have : (y : ℝ) ≤ 15 := by exact_mod_cast Nat.lt_succ_iff.mp h
    rw [abs_of_nonpos (by linarith)]
    linarith
  · have : (16 : ℝ) ≤ y := by exact_mod_cast h
    rw [abs_of_nonneg (by linarith)]
    linarith

end Verif.VisCull
