import Mathlib.Tactic.Ring
import Mathlib.Tactic.Linarith
import Mathlib.Tactic.FieldSimp
import Mathlib.Algebra.Order.Floor.Ring
import Mathlib.Data.Rat.Floor
import Verif.Light.Image
import Verif.Light.Spec

/-!
Lemmas about images.
-/

namespace Verif.Light

theorem each_ok {α β : Type} {f : α → Outcome β} {g : α → β} {l : List α}
    (h : ∀ x ∈ l, f x = .ok (g x)) : each f l = .ok (l.map g) := by
  induction l with
  | nil => rfl
  | cons x l ih =>
    unfold each
    rw [h x (by simp), ih (fun y hy => h y (by simp [hy]))]
    rfl

theorem each_exists {α β : Type} {f : α → Outcome β} {l : List α}
    (h : ∀ x ∈ l, ∃ y, f x = .ok y) : ∃ r, each f l = .ok r := by
  induction l with
  | nil => exact ⟨[], rfl⟩
  | cons x l ih =>
    obtain ⟨y, hy⟩ := h x (by simp)
    obtain ⟨r, hr⟩ := ih (fun y hy => h y (by simp [hy]))
    refine ⟨y :: r, ?_⟩
    unfold each
    rw [hy, hr]
    rfl

/-- What a successful computation over a list gives. -/
theorem each_spec {α β : Type} {f : α → Outcome β} : ∀ {l : List α} {r : List β},
    each f l = .ok r → List.Forall₂ (fun x y => f x = .ok y) l r := by
  intro l
  induction l with
  | nil => intro r h; simp [each] at h; subst h; exact .nil
  | cons x l ih =>
    intro r h
    unfold each at h
    obtain ⟨y, hy, h⟩ := Outcome.bind_eq_ok.1 h
    obtain ⟨ys, hys, h⟩ := Outcome.bind_eq_ok.1 h
    simp only [Outcome.pure_eq, Outcome.ok.injEq] at h
    subst h
    exact .cons hy (ih hys)

theorem each_length {α β : Type} {f : α → Outcome β} {l : List α} {r : List β}
    (h : each f l = .ok r) : r.length = l.length := (each_spec h).length_eq.symm

theorem each_mem {α β : Type} {f : α → Outcome β} {l : List α} {r : List β}
    (h : each f l = .ok r) {y : β} (hy : y ∈ r) : ∃ x ∈ l, f x = .ok y := by
  replace h := each_spec h
  induction h with
  | nil => simp at hy
  | cons h0 _ ih =>
    rcases List.mem_cons.1 hy with rfl | hy
    · exact ⟨_, by simp, h0⟩
    · obtain ⟨x, hx, hxy⟩ := ih hy
      exact ⟨x, by simp [hx], hxy⟩

theorem pixel_ok {α : Type} {img : List α} {i : Nat} (h : i < img.length) :
    pixel img i = .ok img[i] := by
  unfold pixel
  rw [List.getElem?_eq_getElem h]

theorem pixel_some {α : Type} {img : List α} {i : Nat} {p : α} (h : pixel img i = .ok p) :
    img[i]? = some p := by
  unfold pixel at h
  split at h
  · simp at h; subst h; assumption
  · simp at h

theorem pixels_ok {img : List Px} {l : List Nat} (h : ∀ i ∈ l, i < img.length) :
    ∃ ns, each (pixel img) l = .ok ns :=
  each_exists fun i hi => ⟨_, pixel_ok (h i hi)⟩

theorem mem_coords {w h : Nat} {p : Nat × Nat} : p ∈ coords w h ↔ p.1 < w ∧ p.2 < h := by
  unfold coords
  simp only [List.mem_flatMap, List.mem_range, List.mem_map]
  constructor
  · rintro ⟨y, hy, x, hx, rfl⟩
    exact ⟨hx, hy⟩
  · rintro ⟨hx, hy⟩
    exact ⟨p.2, hy, p.1, hx, rfl⟩

theorem coords_length (w h : Nat) : (coords w h).length = w * h := by
  unfold coords
  rw [List.length_flatMap]
  simp [Nat.mul_comm]

theorem index_lt {w h x y : Nat} (hx : x < w) (hy : y < h) : y * w + x < w * h := by
  have h1 : (y + 1) * w ≤ h * w := Nat.mul_le_mul_right w hy
  rw [Nat.succ_mul, Nat.mul_comm h w] at h1
  omega

theorem cell_eq {w h : Nat} {x y : Int} {i : Nat} (hc : cell w h x y = some i) :
    ∃ a b : Nat, x = a ∧ y = b ∧ a < w ∧ b < h ∧ i = b * w + a := by
  unfold cell at hc
  split at hc
  · simp at hc
  · split at hc
    · simp at hc
    · obtain ⟨a, rfl⟩ := Int.eq_ofNat_of_zero_le (a := x) (by omega)
      obtain ⟨b, rfl⟩ := Int.eq_ofNat_of_zero_le (a := y) (by omega)
      refine ⟨a, b, rfl, rfl, by omega, by omega, ?_⟩
      simp only [Option.some.injEq] at hc
      rw [← hc]
      have : (b : Int) * w + a = ((b * w + a : Nat) : Int) := by push_cast; ring
      rw [this, Int.toNat_natCast]

theorem cell_some {w h a b : Nat} (ha : a < w) (hb : b < h) :
    cell w h a b = some (b * w + a) := by
  unfold cell
  rw [if_neg (by omega), if_neg (by omega)]
  have : (b : Int) * w + a = ((b * w + a : Nat) : Int) := by push_cast; ring
  rw [this, Int.toNat_natCast]

theorem cell_lt {w h : Nat} {x y : Int} {i : Nat} (hc : cell w h x y = some i) : i < w * h := by
  obtain ⟨a, b, _, _, ha, hb, rfl⟩ := cell_eq hc
  exact index_lt ha hb

/-! ### Averages -/

theorem sum_between {l : List ℚ} {lo hi : ℚ} (h : ∀ x ∈ l, lo ≤ x ∧ x ≤ hi) :
    lo * l.length ≤ l.sum ∧ l.sum ≤ hi * l.length := by
  induction l with
  | nil => simp
  | cons x l ih =>
    obtain ⟨h1, h2⟩ := ih (fun y hy => h y (by simp [hy]))
    obtain ⟨h3, h4⟩ := h x (by simp)
    simp only [List.sum_cons, List.length_cons]
    push_cast
    constructor <;> linarith

/-- An average lies between the bounds of what it is taken of. -/
theorem mean_between {l : List Px} {c : Fin 3} {lo hi : ℚ} (hne : l ≠ [])
    (h : ∀ p ∈ l, lo ≤ p.col c ∧ p.col c ≤ hi) : lo ≤ mean l c ∧ mean l c ≤ hi := by
  have hpos : (0 : ℚ) < l.length := by
    have := List.length_pos_of_ne_nil hne
    exact_mod_cast this
  have hb := sum_between (l := l.map (fun p => p.col c)) (lo := lo) (hi := hi) (by
    intro x hx
    obtain ⟨p, hp, rfl⟩ := List.mem_map.1 hx
    exact h p hp)
  rw [List.length_map] at hb
  unfold mean
  constructor
  · rw [le_div_iff₀ hpos]; exact hb.1
  · rw [div_le_iff₀ hpos]; exact hb.2

/-- The channel `c` of all visible samples of the image is between the bounds. -/
def VisBetween (c : Fin 3) (lo hi : ℚ) (img : List Px) : Prop :=
  ∀ p ∈ img, p.a = true → lo ≤ p.col c ∧ p.col c ≤ hi

/-- The channel `c` of all samples of the image is between the bounds. -/
def AllBetween (c : Fin 3) (lo hi : ℚ) (img : List Px) : Prop :=
  ∀ p ∈ img, lo ≤ p.col c ∧ p.col c ≤ hi

theorem weigh_between {ns : List Px} {c : Fin 3} {lo hi : ℚ} (hne : ns ≠ [])
    (h : AllBetween c lo hi ns) : lo ≤ (weigh ns).col c ∧ (weigh ns).col c ≤ hi := by
  unfold weigh
  split
  · rename_i hf
    exact mean_between hf (fun p hp => h p (List.mem_filter.1 hp).1)
  · exact mean_between hne h

/-! ### Blur and downsampling -/

theorem mem_of_each_pixel {img ns : List Px} {l : List Nat} (h : each (pixel img) l = .ok ns) :
    ∀ p ∈ ns, p ∈ img := by
  intro p hp
  obtain ⟨i, _, hi⟩ := each_mem h hp
  exact List.mem_of_getElem? (pixel_some hi)

/-- A filter whose kernels are inside of the image gives one sample for each position, between
the bounds of the image. -/
theorem filter_ok {img : List Px} {k : Nat × Nat → List Nat} {cs : List (Nat × Nat)}
    (hin : ∀ p ∈ cs, ∀ i ∈ k p, i < img.length) (hne : ∀ p ∈ cs, k p ≠ []) :
    ∃ r, each (fun p => do
        let ns ← each (pixel img) (k p)
        pure (weigh ns)) cs = .ok r ∧ r.length = cs.length ∧
      ∀ c lo hi, AllBetween c lo hi img → AllBetween c lo hi r := by
  obtain ⟨r, hr⟩ := each_exists (l := cs) (f := fun p => do
        let ns ← each (pixel img) (k p)
        pure (weigh ns)) (by
    intro p hp
    obtain ⟨ns, hns⟩ := pixels_ok (hin p hp)
    exact ⟨weigh ns, by rw [hns]; rfl⟩)
  refine ⟨r, hr, each_length hr, ?_⟩
  intro c lo hi hb q hq
  obtain ⟨p, hp, hpq⟩ := each_mem hr hq
  obtain ⟨ns, hns, h⟩ := Outcome.bind_eq_ok.1 hpq
  simp only [Outcome.pure_eq, Outcome.ok.injEq] at h
  subst h
  refine weigh_between ?_ (fun x hx => hb x (mem_of_each_pixel hns x hx))
  have := each_length hns
  intro h0
  rw [h0] at this
  exact hne p hp (List.length_eq_zero_iff.1 this.symm)

theorem block_in {w h f : Nat} {p : Nat × Nat} {i : Nat} (hi : i ∈ block w h f p) : i < w * h := by
  unfold block at hi
  simp only [List.mem_flatMap, List.mem_filterMap] at hi
  obtain ⟨y0, _, x0, _, hc⟩ := hi
  exact cell_lt hc

theorem block_ne {w h f : Nat} {p : Nat × Nat} (hf : 0 < f) (hx : p.1 < w / f) (hy : p.2 < h / f) :
    block w h f p ≠ [] := by
  have h1 : p.1 * f < w := lt_of_lt_of_le ((Nat.mul_lt_mul_right hf).2 hx) (Nat.div_mul_le_self w f)
  have h2 : p.2 * f < h := lt_of_lt_of_le ((Nat.mul_lt_mul_right hf).2 hy) (Nat.div_mul_le_self h f)
  have : p.2 * f * w + p.1 * f ∈ block w h f p := by
    unfold block
    simp only [List.mem_flatMap, List.mem_filterMap, List.mem_range]
    refine ⟨0, hf, 0, hf, ?_⟩
    have := cell_some h1 h2
    push_cast at this ⊢
    simpa using this
  exact List.ne_nil_of_mem this

theorem downsample_ok {aw ah e : Nat} (he : 1 ≤ e) {img : List Px}
    (hl : img.length = (aw * e) * (ah * e)) :
    ∃ r, downsample (aw * e) (ah * e) e img = .ok r ∧ r.length = aw * ah ∧
      ∀ c lo hi, AllBetween c lo hi img → AllBetween c lo hi r := by
  unfold downsample
  rw [if_neg (by omega)]
  by_cases h1 : e = 1
  · subst h1
    rw [if_pos rfl]
    exact ⟨img, rfl, by simpa using hl, fun _ _ _ h => h⟩
  · rw [if_neg h1]
    have hw : aw * e / e = aw := Nat.mul_div_cancel _ (by omega)
    have hh : ah * e / e = ah := Nat.mul_div_cancel _ (by omega)
    rw [hw, hh]
    obtain ⟨r, hr, hrl, hb⟩ := filter_ok (img := img) (k := block (aw * e) (ah * e) e)
      (cs := coords aw ah) (fun p _ i hi => by rw [hl]; exact block_in hi)
      (fun p hp => by
        obtain ⟨hx, hy⟩ := mem_coords.1 hp
        exact block_ne (by omega) (by rw [hw]; exact hx) (by rw [hh]; exact hy))
    exact ⟨r, hr, by rw [hrl, coords_length], hb⟩

theorem clampTo_lt {n : Nat} (hn : 0 < n) (v : Int) : clampTo n v < n := by
  unfold clampTo
  omega

theorem box_in {w h r : Nat} (hw : 0 < w) (hh : 0 < h) {p : Nat × Nat} {i : Nat}
    (hi : i ∈ box w h r p) : i < w * h := by
  unfold box at hi
  simp only [List.mem_flatMap, List.mem_map] at hi
  obtain ⟨y0, _, x0, _, rfl⟩ := hi
  exact index_lt (clampTo_lt hw _) (clampTo_lt hh _)

theorem spread_ne (r : Nat) : (0 : Int) ∈ spread r := by
  unfold spread
  simp only [List.mem_map, List.mem_range]
  exact ⟨r, by omega, by omega⟩

theorem blur_ok {w h r : Nat} {img : List Px} (hl : img.length = w * h) :
    ∃ res, blur w h r img = .ok res ∧ res.length = w * h ∧
      ∀ c lo hi, AllBetween c lo hi img → AllBetween c lo hi res := by
  unfold blur
  obtain ⟨res, hr, hrl, hb⟩ := filter_ok (img := img) (k := box w h r)
      (cs := coords w h) (fun p hp i hi => by
        obtain ⟨hx, hy⟩ := mem_coords.1 hp
        rw [hl]; exact box_in (by omega) (by omega) hi)
      (fun p hp => by
        unfold box
        apply List.ne_nil_of_mem (a := clampTo h (p.2 + 0) * w + clampTo w (p.1 + 0))
        simp only [List.mem_flatMap, List.mem_map]
        exact ⟨0, spread_ne r, 0, spread_ne r, rfl⟩)
  exact ⟨res, hr, by rw [hrl, coords_length], hb⟩

end Verif.Light
