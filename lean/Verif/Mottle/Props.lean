import Verif.Mottle.Spec
import Mathlib.Tactic.Ring
import Mathlib.Tactic.Positivity
import Mathlib.Data.List.Nodup
import Mathlib.Data.List.GetD

/-!
C214: the noise added to the minimum light.
-/

namespace Verif.Mottle

open Spec

/-! ### Interpolation -/

theorem frac_range (x : ℚ) : 0 ≤ x - ⌊x⌋ ∧ x - ⌊x⌋ < 1 :=
  ⟨by have := Int.floor_le x; linarith, by have := Int.lt_floor_add_one x; linarith⟩

theorem lerp_bounds {g : ℤ → ℚ} {a b : ℚ} (h : ∀ n, a ≤ g n ∧ g n ≤ b) (x : ℚ) : a ≤ lerp g x ∧ lerp g x ≤ b := by
  unfold lerp
  obtain ⟨h0, h1⟩ := frac_range x
  generalize x - (⌊x⌋ : ℚ) = f at h0 h1
  obtain ⟨p1, p2⟩ := h ⌊x⌋
  obtain ⟨q1, q2⟩ := h (⌊x⌋ + 1)
  constructor <;> nlinarith

theorem lerp_near {g g' : ℤ → ℚ} {d : ℚ} (h : ∀ n, |g n - g' n| ≤ d) (x : ℚ) : |lerp g x - lerp g' x| ≤ d := by
  have e : lerp g x - lerp g' x = lerp (fun n => g n - g' n) x := by unfold lerp; ring
  rw [e]
  exact abs_le.mpr (lerp_bounds (a := -d) (b := d) (fun n => abs_le.mp (h n)) x)

/-- Interpolation between values from 0 to 255 changes by at most 255 per unit. -/
theorem lerp_lipschitz {g : ℤ → ℚ} (h : ∀ n, 0 ≤ g n ∧ g n ≤ 255) (x y : ℚ) : |lerp g x - lerp g y| ≤ 255 * |x - y| := by
  have hd : ∀ m n, |g m - g n| ≤ 255 := by
    intro m n
    rw [abs_le]
    have := h m; have := h n
    constructor <;> linarith
  have main : ∀ x y : ℚ, x ≤ y → |lerp g x - lerp g y| ≤ 255 * |x - y| := by
    intro x y hxy
    have hab : |x - y| = y - x := by rw [abs_sub_comm, abs_of_nonneg (by linarith)]
    rw [hab]
    have hfl : ⌊x⌋ ≤ ⌊y⌋ := Int.floor_le_floor hxy
    obtain ⟨x0, x1⟩ := frac_range x
    obtain ⟨y0, y1⟩ := frac_range y
    rcases lt_or_ge (⌊x⌋ + 1) ⌊y⌋ with hc | hc
    · have h1 : (⌊x⌋ : ℚ) + 2 ≤ ⌊y⌋ := by exact_mod_cast (by omega : ⌊x⌋ + 2 ≤ ⌊y⌋)
      have hb := lerp_bounds h x
      have hb' := lerp_bounds h y
      rw [abs_le]
      constructor <;> linarith
    · rcases (by omega : ⌊y⌋ = ⌊x⌋ ∨ ⌊y⌋ = ⌊x⌋ + 1) with e | e
      · have : lerp g x - lerp g y = (g (⌊x⌋ + 1) - g ⌊x⌋) * (x - y) := by
          unfold lerp
          rw [e]
          ring
        rw [this, abs_mul, hab]
        exact mul_le_mul_of_nonneg_right (hd _ _) (by linarith)
      · have hy : (⌊y⌋ : ℚ) = ⌊x⌋ + 1 := by rw [e]; push_cast; ring
        have e1 : lerp g x - lerp g y = (g ⌊x⌋ - g (⌊x⌋ + 1)) * (1 - (x - ⌊x⌋)) + (g ⌊y⌋ - g (⌊y⌋ + 1)) * (y - ⌊y⌋) := by
          unfold lerp
          rw [e]
          push_cast
          ring
        rw [e1]
        have t1 : |(g ⌊x⌋ - g (⌊x⌋ + 1)) * (1 - (x - ⌊x⌋))| ≤ 255 * (1 - (x - ⌊x⌋)) := by
          rw [abs_mul, abs_of_nonneg (by linarith : (0 : ℚ) ≤ 1 - (x - ⌊x⌋))]
          exact mul_le_mul_of_nonneg_right (hd _ _) (by linarith)
        have t2 : |(g ⌊y⌋ - g (⌊y⌋ + 1)) * (y - ⌊y⌋)| ≤ 255 * (y - ⌊y⌋) := by
          rw [abs_mul, abs_of_nonneg y0]
          exact mul_le_mul_of_nonneg_right (hd _ _) y0
        refine le_trans (abs_add_le _ _) ?_
        linarith
  rcases le_total x y with h1 | h1
  · exact main x y h1
  · rw [abs_sub_comm, abs_sub_comm x y]
    exact main y x h1

/-! ### The table -/

theorem perm_lt (i : ℕ) : perm i < 256 := by
  unfold perm
  by_cases h : i < permutation.length
  · rw [List.getD_eq_getElem _ _ h]
    have : ∀ v ∈ permutation, v < 256 := by decide +kernel
    exact this _ (List.getElem_mem h)
  · rw [List.getD_eq_default _ _ (by omega)]
    decide

theorem lattice_range (i j k : ℤ) : (0 : ℚ) ≤ lattice i j k ∧ (lattice i j k : ℚ) ≤ 255 := by
  have := perm_lt ((perm ((perm (i % 256).toNat + (j % 256).toNat) % 256) + (k % 256).toNat) % 256)
  unfold lattice
  constructor
  · positivity
  · exact_mod_cast (by omega : perm _ ≤ 255)

theorem perm_inj {i j : ℕ} (hi : i < 256) (hj : j < 256) (h : perm i = perm j) : i = j := by
  have hl : permutation.length = 256 := by decide +kernel
  have hn : permutation.Nodup := by decide +kernel
  unfold perm at h
  rw [List.getD_eq_getElem _ _ (by omega), List.getD_eq_getElem _ _ (by omega)] at h
  exact (List.Nodup.getElem_inj_iff hn).mp h

theorem lattice_inj {i i' j k : ℤ} (h : lattice i j k = lattice i' j k) : i % 256 = i' % 256 := by
  unfold lattice at h
  have b1 := perm_lt (i % 256).toNat
  have b2 := perm_lt (i' % 256).toNat
  have h1 := perm_inj (Nat.mod_lt _ (by norm_num)) (Nat.mod_lt _ (by norm_num)) h
  have c1 := perm_lt ((perm (i % 256).toNat + (j % 256).toNat) % 256)
  have c2 := perm_lt ((perm (i' % 256).toNat + (j % 256).toNat) % 256)
  have h2 := perm_inj (Nat.mod_lt _ (by norm_num)) (Nat.mod_lt _ (by norm_num))
    (by omega : perm ((perm (i % 256).toNat + (j % 256).toNat) % 256) = perm ((perm (i' % 256).toNat + (j % 256).toNat) % 256))
  have h3 := perm_inj (by omega) (by omega) (by omega : perm (i % 256).toNat = perm (i' % 256).toNat)
  omega

/-- What `mod_round_to_neg_inf` computes. -/
theorem modNeg_256 (x : ℤ) : 0 ≤ modNeg x 256 ∧ modNeg x 256 ≤ 256 ∧ modNeg x 256 % 256 = x % 256 ∧
    (modNeg x 256 = 256 ↔ x < 0 ∧ x % 256 = 0) := by
  unfold modNeg
  split_ifs with h
  · rw [Int.tmod_eq_emod_of_nonneg h]
    omega
  · rw [Int.tmod_eq_emod_of_nonneg (by omega)]
    omega

theorem tex_lattice (x y z : ℤ) (a b c : ℕ) (ha : a ≤ 1) (hb : b ≤ 1) (hc : c ≤ 1) :
    tex ((modNeg x 256).toNat + a) ((modNeg y 256).toNat + b) ((modNeg z 256).toNat + c) = lattice (x + a) (y + b) (z + c) := by
  obtain ⟨x0, _, x1, _⟩ := modNeg_256 x
  obtain ⟨y0, _, y1, _⟩ := modNeg_256 y
  obtain ⟨z0, _, z1, _⟩ := modNeg_256 z
  unfold tex lattice
  have e1 : ((modNeg x 256).toNat + a) % 256 = ((x + a) % 256).toNat := by omega
  rw [e1]
  have e2 : (perm ((x + a) % 256).toNat + ((modNeg y 256).toNat + b)) % 256 = (perm ((x + a) % 256).toNat + ((y + b) % 256).toNat) % 256 := by omega
  rw [e2]
  generalize perm ((perm ((x + a) % 256).toNat + ((y + b) % 256).toNat) % 256) = p
  congr 1
  omega

/-! ### The noise -/

/-- Cutting off the fraction loses less than one. -/
theorem mix_floor (a b : ℕ) (f : ℚ) (h0 : 0 ≤ f) (h1 : f < 1) :
    (mix a b f : ℚ) ≤ a * (1 - f) + b * f ∧ a * (1 - f) + b * f < mix a b f + 1 := by
  unfold mix
  have hp : (0 : ℚ) ≤ a * (1 - f) + b * f := by
    have : (0 : ℚ) ≤ a := by positivity
    have : (0 : ℚ) ≤ b := by positivity
    nlinarith
  have hf : 0 ≤ ⌊(a : ℚ) * (1 - f) + b * f⌋ := Int.floor_nonneg.mpr hp
  have e : ((⌊(a : ℚ) * (1 - f) + b * f⌋.toNat : ℕ) : ℚ) = (⌊(a : ℚ) * (1 - f) + b * f⌋ : ℚ) := by
    have : ((⌊(a : ℚ) * (1 - f) + b * f⌋.toNat : ℕ) : ℤ) = ⌊(a : ℚ) * (1 - f) + b * f⌋ := Int.toNat_of_nonneg hf
    exact_mod_cast this
  rw [e]
  exact ⟨Int.floor_le _, Int.lt_floor_add_one _⟩

/-- One level of the interpolation. -/
theorem mix_lerp {g : ℤ → ℚ} {x d : ℚ} {a b : ℕ} (ha : (a : ℚ) ≤ g ⌊x⌋ ∧ g ⌊x⌋ ≤ a + d) (hb : (b : ℚ) ≤ g (⌊x⌋ + 1) ∧ g (⌊x⌋ + 1) ≤ b + d) :
    (mix a b (x - ⌊x⌋) : ℚ) ≤ lerp g x ∧ lerp g x ≤ mix a b (x - ⌊x⌋) + (d + 1) := by
  obtain ⟨h0, h1⟩ := frac_range x
  obtain ⟨m1, m2⟩ := mix_floor a b _ h0 h1
  unfold lerp
  generalize x - (⌊x⌋ : ℚ) = f at *
  constructor <;> nlinarith

theorem cell_noise (x y z : ℚ) :
    (cell (modNeg ⌊x⌋ 256).toNat (modNeg ⌊y⌋ 256).toNat (modNeg ⌊z⌋ 256).toNat (x - ⌊x⌋) (y - ⌊y⌋) (z - ⌊z⌋) : ℚ) ≤ noise x y z ∧
    noise x y z ≤ cell (modNeg ⌊x⌋ 256).toNat (modNeg ⌊y⌋ 256).toNat (modNeg ⌊z⌋ 256).toNat (x - ⌊x⌋) (y - ⌊y⌋) (z - ⌊z⌋) + 3 := by
  have t : ∀ a b c : ℕ, a ≤ 1 → b ≤ 1 → c ≤ 1 →
      (tex ((modNeg ⌊x⌋ 256).toNat + a) ((modNeg ⌊y⌋ 256).toNat + b) ((modNeg ⌊z⌋ 256).toNat + c) : ℚ) = lattice (⌊x⌋ + a) (⌊y⌋ + b) (⌊z⌋ + c) :=
    fun a b c ha hb hc => by rw [tex_lattice ⌊x⌋ ⌊y⌋ ⌊z⌋ a b c ha hb hc]
  have t000 := t 0 0 0 (by norm_num) (by norm_num) (by norm_num)
  have t100 := t 1 0 0 (by norm_num) (by norm_num) (by norm_num)
  have t010 := t 0 1 0 (by norm_num) (by norm_num) (by norm_num)
  have t110 := t 1 1 0 (by norm_num) (by norm_num) (by norm_num)
  have t001 := t 0 0 1 (by norm_num) (by norm_num) (by norm_num)
  have t101 := t 1 0 1 (by norm_num) (by norm_num) (by norm_num)
  have t011 := t 0 1 1 (by norm_num) (by norm_num) (by norm_num)
  have t111 := t 1 1 1 (by norm_num) (by norm_num) (by norm_num)
  simp only [Nat.add_zero, Nat.cast_zero, Nat.cast_one, Int.add_zero] at t000 t100 t010 t110 t001 t101 t011 t111
  have m : ∀ (j k : ℤ) (a b : ℕ), (a : ℚ) = lattice ⌊x⌋ j k → (b : ℚ) = lattice (⌊x⌋ + 1) j k →
      (mix a b (x - ⌊x⌋) : ℚ) ≤ lerp (fun i => (lattice i j k : ℚ)) x ∧ lerp (fun i => (lattice i j k : ℚ)) x ≤ mix a b (x - ⌊x⌋) + 1 := by
    intro j k a b ha hb
    have := mix_lerp (g := fun i => (lattice i j k : ℚ)) (x := x) (d := 0) (a := a) (b := b) (by simp [ha]) (by simp [hb])
    simpa using this
  unfold cell noise
  have r := mix_lerp (g := fun k => lerp (fun j => lerp (fun i => (lattice i j k : ℚ)) x) y) (x := z) (d := 2)
    (mix_lerp (g := fun j => lerp (fun i => (lattice i j ⌊z⌋ : ℚ)) x) (x := y) (d := 1) (m _ _ _ _ t000 t100) (m _ _ _ _ t010 t110) |> fun q => ⟨q.1, by linarith [q.2]⟩)
    (mix_lerp (g := fun j => lerp (fun i => (lattice i j (⌊z⌋ + 1) : ℚ)) x) (x := y) (d := 1) (m _ _ _ _ t001 t101) (m _ _ _ _ t011 t111) |> fun q => ⟨q.1, by linarith [q.2]⟩)
  exact ⟨r.1, by linarith [r.2]⟩

theorem noise_range (x y z : ℚ) : 0 ≤ noise x y z ∧ noise x y z ≤ 255 :=
  lerp_bounds (fun _ => lerp_bounds (fun _ => lerp_bounds (fun _ => lattice_range _ _ _) x) y) z

theorem noise_lipschitz (x y z x' y' z' : ℚ) : |noise x y z - noise x' y' z'| ≤ 255 * (|x - x'| + |y - y'| + |z - z'|) := by
  have h1 : |noise x y z - noise x' y z| ≤ 255 * |x - x'| :=
    lerp_near (fun _ => lerp_near (fun _ => lerp_lipschitz (fun _ => lattice_range _ _ _) x x') y) z
  have h2 : |noise x' y z - noise x' y' z| ≤ 255 * |y - y'| :=
    lerp_near (fun _ => lerp_lipschitz (fun _ => lerp_bounds (fun _ => lattice_range _ _ _) x') y y') z
  have h3 : |noise x' y' z - noise x' y' z'| ≤ 255 * |z - z'| :=
    lerp_lipschitz (fun _ => lerp_bounds (fun _ => lerp_bounds (fun _ => lattice_range _ _ _) x') y') z z'
  have e : noise x y z - noise x' y' z' = (noise x y z - noise x' y z) + (noise x' y z - noise x' y' z) + (noise x' y' z - noise x' y' z') := by ring
  rw [e]
  refine le_trans (abs_add_le _ _) ?_
  have := abs_add_le (noise x y z - noise x' y z) (noise x' y z - noise x' y' z)
  linarith

theorem coord_ok (p : ℚ) : coord p = if InRange p then .ok ((modNeg ⌊p / 16⌋ 256).toNat, p / 16 - ⌊p / 16⌋) else .ub := by
  unfold coord InRange
  rw [show p * (1 / 16) = p / 16 by ring]

theorem mottle_eq (d : Bool) (px py pz v : ℚ) (h : mottle d px py pz = .ok v) : InRange px ∧ InRange py ∧ InRange pz ∧
    v = (cell (modNeg ⌊px / 16⌋ 256).toNat (modNeg ⌊py / 16⌋ 256).toNat (modNeg ⌊pz / 16⌋ 256).toNat (px / 16 - ⌊px / 16⌋) (py / 16 - ⌊py / 16⌋) (pz / 16 - ⌊pz / 16⌋) : ℚ) / 255 * 48 := by
  unfold mottle at h
  rw [coord_ok, coord_ok, coord_ok] at h
  split_ifs at h with h1 h2 h3
  · rw [Outcome.ok_bind, Outcome.ok_bind, Outcome.ok_bind] at h
    split_ifs at h with h4
    cases h
    exact ⟨h1, h2, h3, rfl⟩
  all_goals cases h

/-- **C214**: the noise is from 0 to 48, and within 48 * 3 / 255 below the interpolation of its lattice. -/
theorem mottle_range (d : Bool) (px py pz v : ℚ) (h : mottle d px py pz = .ok v) :
    0 ≤ v ∧ v ≤ 48 ∧ v ≤ noise (px / 16) (py / 16) (pz / 16) / 255 * 48 ∧ noise (px / 16) (py / 16) (pz / 16) / 255 * 48 ≤ v + 144 / 255 := by
  obtain ⟨_, _, _, rfl⟩ := mottle_eq d px py pz v h
  obtain ⟨c1, c2⟩ := cell_noise (px / 16) (py / 16) (pz / 16)
  obtain ⟨n1, n2⟩ := noise_range (px / 16) (py / 16) (pz / 16)
  have c0 : (0 : ℚ) ≤ (cell (modNeg ⌊px / 16⌋ 256).toNat (modNeg ⌊py / 16⌋ 256).toNat (modNeg ⌊pz / 16⌋ 256).toNat (px / 16 - ⌊px / 16⌋) (py / 16 - ⌊py / 16⌋) (pz / 16 - ⌊pz / 16⌋) : ℕ) := by positivity
  refine ⟨by positivity, by linarith, by linarith, by linarith⟩

/-- **C214**: there are no seams: between two places the noise differs by at most 3 per unit of distance (in the sum of the
coordinates), and 144 / 255 for the fractions cut off. -/
theorem mottle_seamless (d : Bool) (px py pz qx qy qz v w : ℚ) (hv : mottle d px py pz = .ok v) (hw : mottle d qx qy qz = .ok w) :
    |v - w| ≤ 3 * (|px - qx| + |py - qy| + |pz - qz|) + 144 / 255 := by
  obtain ⟨_, _, v1, v2⟩ := mottle_range d px py pz v hv
  obtain ⟨_, _, w1, w2⟩ := mottle_range d qx qy qz w hw
  have hl := noise_lipschitz (px / 16) (py / 16) (pz / 16) (qx / 16) (qy / 16) (qz / 16)
  have e : ∀ a b : ℚ, |a / 16 - b / 16| = |a - b| / 16 := by
    intro a b
    rw [← sub_div, abs_div, abs_of_pos (by norm_num : (0 : ℚ) < 16)]
  rw [e, e, e] at hl
  rw [abs_le] at hl ⊢
  constructor <;> linarith [hl.1, hl.2]

/-- **C214**: without assertions the noise is defined exactly in the range of `int`, and repeats after 4096 units. -/
theorem mottle_defined (px py pz : ℚ) : (∃ v, mottle false px py pz = .ok v) ↔ InRange px ∧ InRange py ∧ InRange pz := by
  constructor
  · rintro ⟨v, h⟩
    obtain ⟨h1, h2, h3, _⟩ := mottle_eq _ _ _ _ _ h
    exact ⟨h1, h2, h3⟩
  · rintro ⟨h1, h2, h3⟩
    unfold mottle
    rw [coord_ok, coord_ok, coord_ok, if_pos h1, if_pos h2, if_pos h3, Outcome.ok_bind, Outcome.ok_bind, Outcome.ok_bind, if_neg (by simp)]
    exact ⟨_, rfl⟩

theorem cell_congr {x x' y y' z z' : ℤ} (hx : x % 256 = x' % 256) (hy : y % 256 = y' % 256) (hz : z % 256 = z' % 256) (fx fy fz : ℚ) :
    cell (modNeg x 256).toNat (modNeg y 256).toNat (modNeg z 256).toNat fx fy fz =
      cell (modNeg x' 256).toNat (modNeg y' 256).toNat (modNeg z' 256).toNat fx fy fz := by
  have t : ∀ a b c : ℕ, a ≤ 1 → b ≤ 1 → c ≤ 1 →
      tex ((modNeg x 256).toNat + a) ((modNeg y 256).toNat + b) ((modNeg z 256).toNat + c) =
      tex ((modNeg x' 256).toNat + a) ((modNeg y' 256).toNat + b) ((modNeg z' 256).toNat + c) := by
    intro a b c ha hb hc
    rw [tex_lattice x y z a b c ha hb hc, tex_lattice x' y' z' a b c ha hb hc]
    unfold lattice
    rw [show (x + (a : ℤ)) % 256 = (x' + a) % 256 by omega, show (y + (b : ℤ)) % 256 = (y' + b) % 256 by omega,
      show (z + (c : ℤ)) % 256 = (z' + c) % 256 by omega]
  have t000 := t 0 0 0 (by norm_num) (by norm_num) (by norm_num)
  have t100 := t 1 0 0 (by norm_num) (by norm_num) (by norm_num)
  have t010 := t 0 1 0 (by norm_num) (by norm_num) (by norm_num)
  have t110 := t 1 1 0 (by norm_num) (by norm_num) (by norm_num)
  have t001 := t 0 0 1 (by norm_num) (by norm_num) (by norm_num)
  have t101 := t 1 0 1 (by norm_num) (by norm_num) (by norm_num)
  have t011 := t 0 1 1 (by norm_num) (by norm_num) (by norm_num)
  have t111 := t 1 1 1 (by norm_num) (by norm_num) (by norm_num)
  simp only [Nat.add_zero] at t000 t100 t010 t110 t001 t101 t011 t111
  unfold cell
  rw [t000, t100, t010, t110, t001, t101, t011, t111]

theorem shift_cell (p : ℚ) (n : ℤ) : (⌊(p + 4096 * n) / 16⌋ : ℤ) = ⌊p / 16⌋ + 256 * n := by
  rw [show (p + 4096 * n) / 16 = p / 16 + ((256 * n : ℤ) : ℚ) by push_cast; ring, Int.floor_add_intCast]

/-- **C214**: the noise repeats after 4096 units, in every direction. -/
theorem mottle_repeats (px py pz v w : ℚ) (i j k : ℤ) (hv : mottle false px py pz = .ok v)
    (hw : mottle false (px + 4096 * i) (py + 4096 * j) (pz + 4096 * k) = .ok w) : w = v := by
  obtain ⟨_, _, _, rfl⟩ := mottle_eq _ _ _ _ _ hv
  obtain ⟨_, _, _, rfl⟩ := mottle_eq _ _ _ _ _ hw
  have f : ∀ (p : ℚ) (n : ℤ), (p + 4096 * n) / 16 - (⌊(p + 4096 * n) / 16⌋ : ℚ) = p / 16 - ⌊p / 16⌋ := by
    intro p n
    rw [shift_cell]
    push_cast
    ring
  rw [f, f, f, shift_cell, shift_cell, shift_cell]
  rw [cell_congr (x' := ⌊px / 16⌋) (y' := ⌊py / 16⌋) (z' := ⌊pz / 16⌋) (by omega) (by omega) (by omega)]

/-- **C214**: on every line along the first axis of the lattice the noise takes different values for 256 steps of 16 units. -/
theorem mottle_varies (i i' j k : ℤ) (hi : 0 ≤ i) (hi' : i' < 256) (hlt : i < i') (v w : ℚ) (hv : mottle false (16 * i) (16 * j) (16 * k) = .ok v)
    (hw : mottle false (16 * i') (16 * j) (16 * k) = .ok w) : v ≠ w := by
  have at_lattice : ∀ (i j k : ℤ) (v : ℚ), mottle false (16 * i) (16 * j) (16 * k) = .ok v → v = (lattice i j k : ℚ) / 255 * 48 := by
    intro i j k v h
    obtain ⟨_, _, _, rfl⟩ := mottle_eq _ _ _ _ _ h
    have e : ∀ n : ℤ, ((16 : ℚ) * n) / 16 = n := fun n => by ring
    rw [e, e, e, Int.floor_intCast, Int.floor_intCast, Int.floor_intCast, sub_self, sub_self, sub_self]
    have m : ∀ a b : ℕ, mix a b 0 = a := by
      intro a b
      unfold mix
      simp
    have t := tex_lattice i j k 0 0 0 (by norm_num) (by norm_num) (by norm_num)
    simp only [Nat.add_zero, Nat.cast_zero, Int.add_zero] at t
    unfold cell
    simp only [m]
    rw [t]
  rw [at_lattice i j k v hv, at_lattice i' j k w hw]
  intro h
  have h1 : (lattice i j k : ℚ) = lattice i' j k := by linarith
  have := lattice_inj (by exact_mod_cast h1 : lattice i j k = lattice i' j k)
  omega

/-- **C214**, against the property: in a debug build the program ends if a coordinate is in a cell whose number is a negative multiple
of 256, and only then: the reduction yields 256 in place of 0. -/
theorem mottle_debug (px py pz : ℚ) (hx : InRange px) (hy : InRange py) (hz : InRange pz) : mottle true px py pz = .error ↔
    ∃ p ∈ [px, py, pz], ⌊p / 16⌋ < 0 ∧ ⌊p / 16⌋ % 256 = 0 := by
  unfold mottle
  rw [coord_ok, coord_ok, coord_ok, if_pos hx, if_pos hy, if_pos hz, Outcome.ok_bind, Outcome.ok_bind, Outcome.ok_bind]
  obtain ⟨x0, x1, _, x2⟩ := modNeg_256 ⌊px / 16⌋
  obtain ⟨y0, y1, _, y2⟩ := modNeg_256 ⌊py / 16⌋
  obtain ⟨z0, z1, _, z2⟩ := modNeg_256 ⌊pz / 16⌋
  simp only [List.mem_cons, List.not_mem_nil, or_false, exists_eq_or_imp, exists_eq_left]
  rw [← x2, ← y2, ← z2]
  split_ifs with h
  · simp only [true_iff]
    omega
  · simp only [reduceCtorEq, false_iff]
    simp only [true_and, not_not] at h
    omega

example : mottle true (-4096) 0 0 = .error ∧ (∃ v, mottle false (-4096) 0 0 = .ok v) := by
  refine ⟨(mottle_debug _ _ _ ?_ ?_ ?_).mpr ⟨-4096, by simp, ?_⟩, (mottle_defined _ _ _).mpr ⟨?_, ?_, ?_⟩⟩ <;> try unfold InRange
  all_goals decide +kernel

example : mottle false 8 0 0 = .ok (103 / 255 * 48) ∧ mottle false (8 - 4096) 0 4096 = .ok (103 / 255 * 48) := by decide +kernel

end Verif.Mottle
