import Verif.SurfLights.AreaLemmas
import Mathlib.Algebra.Order.Floor.Ring
import Mathlib.Tactic.FinCases
import Mathlib.Tactic.LinearCombination
import Mathlib.Data.Fintype.Basic
import Mathlib.Tactic.NormNum

/-!
Lemmas on one cut.
-/

namespace Verif.SurfLights

open Verif.Geom

variable {K : Type} [Field K] [LinearOrder K] [IsStrictOrderedRing K]

/-- The corners with the points where the plane is crossed, without the last corner. -/
def refine' (i : Fin 3) (m : K) : List (Vec K) → List (Vec K)
  | v :: v' :: rest =>
    let d := coord i v - m
    let d' := coord i v' - m
    if d = 0 ∨ d' = 0 then v :: refine' i m (v' :: rest)
    else if decide (d > 0) != decide (d' > 0) then v :: crossing d d' v v' :: refine' i m (v' :: rest)
    else v :: refine' i m (v' :: rest)
  | _ => []

theorem push_ok {l : List (Vec K)} {v : Vec K} {l' : List (Vec K)} (h : push l v = .ok l') : l' = l ++ [v] := by
  unfold push at h
  split at h
  · cases h; rfl
  · cases h

theorem crossing_coord (i : Fin 3) (m : K) (v v' : Vec K) (h : coord i v - m ≠ coord i v' - m) :
    coord i (crossing (coord i v - m) (coord i v' - m) v v') - m = 0 := by
  have h' : coord i v - m - (coord i v' - m) ≠ 0 := sub_ne_zero.2 h
  have e : coord i (crossing (coord i v - m) (coord i v' - m) v v')
      = coord i v + (coord i v' - coord i v) * ((coord i v - m) / (coord i v - m - (coord i v' - m))) := by
    fin_cases i <;> rfl
  rw [e]
  generalize coord i v = a at *
  generalize coord i v' = b at *
  field_simp
  ring

theorem sides_ne {d d' : K} (h : (decide (d > 0) != decide (d' > 0)) = true) : d ≠ d' := by
  rintro rfl
  simp at h

theorem walk_ok (i : Fin 3) (m : K) (l f b f' b' : List (Vec K)) (h : walk i m l f b = .ok (f', b')) :
    f' = f ++ (refine' i m l).filter (fun v => decide (coord i v - m ≥ 0)) ∧
      b' = b ++ (refine' i m l).filter (fun v => decide (coord i v - m ≤ 0)) := by
  induction l generalizing f b with
  | nil => cases h; simp [refine']
  | cons v l ih =>
    cases l with
    | nil => cases h; simp [refine']
    | cons v' l =>
      unfold walk at h
      simp only at h
      obtain ⟨f1, h1, h⟩ := Outcome.bind_eq_ok.1 h
      obtain ⟨b1, h2, h⟩ := Outcome.bind_eq_ok.1 h
      have e1 : f1 = f ++ [v].filter (fun v => decide (coord i v - m ≥ 0)) := by
        unfold pushIf at h1
        split at h1
        · next hd =>
          rw [push_ok h1, List.filter_cons_of_pos (p := fun v => decide (coord i v - m ≥ 0)) (decide_eq_true hd)]
          rfl
        · next hd =>
          cases h1
          rw [List.filter_cons_of_neg (p := fun v => decide (coord i v - m ≥ 0)) (by simpa only [decide_eq_true_eq] using hd)]
          simp
      have e2 : b1 = b ++ [v].filter (fun v => decide (coord i v - m ≤ 0)) := by
        unfold pushIf at h2
        split at h2
        · next hd =>
          rw [push_ok h2, List.filter_cons_of_pos (p := fun v => decide (coord i v - m ≤ 0)) (decide_eq_true hd)]
          rfl
        · next hd =>
          cases h2
          rw [List.filter_cons_of_neg (p := fun v => decide (coord i v - m ≤ 0)) (by simpa only [decide_eq_true_eq] using hd)]
          simp
      unfold refine'
      simp only
      by_cases h3 : coord i v - m = 0 ∨ coord i v' - m = 0
      · rw [if_pos h3] at h
        rw [if_pos h3]
        obtain ⟨a1, a2⟩ := ih f1 b1 h
        rw [a1, a2, e1, e2, List.append_assoc, List.append_assoc, ← List.filter_append, ← List.filter_append]
        exact ⟨rfl, rfl⟩
      · rw [if_neg h3] at h
        rw [if_neg h3]
        by_cases h4 : (decide (coord i v - m > 0) != decide (coord i v' - m > 0)) = true
        · rw [if_pos h4] at h
          rw [if_pos h4]
          obtain ⟨f2, h5, h⟩ := Outcome.bind_eq_ok.1 h
          obtain ⟨b2, h6, h⟩ := Outcome.bind_eq_ok.1 h
          obtain ⟨a1, a2⟩ := ih f2 b2 h
          have hc := crossing_coord i m v v' (sides_ne h4)
          rw [a1, a2, push_ok h5, push_ok h6, e1, e2]
          generalize crossing (coord i v - m) (coord i v' - m) v v' = c at hc
          have k1 : [c] = [c].filter (fun v => decide (coord i v - m ≥ 0)) := by
            rw [List.filter_cons_of_pos (p := fun v => decide (coord i v - m ≥ 0)) (decide_eq_true (le_of_eq hc.symm))]
            rfl
          have k2 : [c] = [c].filter (fun v => decide (coord i v - m ≤ 0)) := by
            rw [List.filter_cons_of_pos (p := fun v => decide (coord i v - m ≤ 0)) (decide_eq_true (le_of_eq hc))]
            rfl
          constructor
          · conv_lhs => rw [k1]
            rw [List.append_assoc, List.append_assoc, ← List.filter_append, ← List.filter_append]
            rfl
          · conv_lhs => rw [k2]
            rw [List.append_assoc, List.append_assoc, ← List.filter_append, ← List.filter_append]
            rfl
        · rw [if_neg h4] at h
          rw [if_neg h4]
          obtain ⟨a1, a2⟩ := ih f1 b1 h
          rw [a1, a2, e1, e2, List.append_assoc, List.append_assoc, ← List.filter_append, ← List.filter_append]
          exact ⟨rfl, rfl⟩

theorem refine_head (i : Fin 3) (m : K) (v : Vec K) (l : List (Vec K)) (z : Vec K) :
    ∃ r, refine' i m (v :: l ++ [z]) = v :: r := by
  cases l with
  | nil =>
    simp only [List.cons_append, List.nil_append]
    rw [refine']
    split
    · exact ⟨_, rfl⟩
    · split <;> exact ⟨_, rfl⟩
  | cons u l =>
    simp only [List.cons_append]
    rw [refine']
    split
    · exact ⟨_, rfl⟩
    · split <;> exact ⟨_, rfl⟩

theorem tame_of_zero {d : Vec K → K} {a b : Vec K} (h : d a = 0 ∨ d b = 0) : Tame d a b := by
  rcases h with h | h
  · exact ⟨fun h' => absurd h'.1 (by rw [h]; exact lt_irrefl _), fun h' => absurd h'.1 (by rw [h]; exact lt_irrefl _)⟩
  · exact ⟨fun h' => absurd h'.2 (by rw [h]; exact lt_irrefl _), fun h' => absurd h'.2 (by rw [h]; exact lt_irrefl _)⟩

theorem tame_of_same {d : Vec K → K} {a b : Vec K} (h : ¬ (decide (d a > 0) != decide (d b > 0)) = true) (h0 : ¬ d b = 0) :
    Tame d a b := by
  have h : (d a > 0) ↔ d b > 0 := by
    rw [bne_iff_ne, ne_eq, not_not] at h
    exact decide_eq_decide.1 h
  refine ⟨?_, ?_⟩
  · rintro ⟨h1, h2⟩
    exact absurd (h.1 h1) (not_lt.2 (le_of_lt h2))
  · rintro ⟨h1, h2⟩
    exact absurd (h.2 h2) (not_lt.2 (le_of_lt h1))

/-- One step of the list of corners and crossings. -/
theorem refine_step (i : Fin 3) (m : K) (v v' : Vec K) (l : List (Vec K)) :
    (Tame (fun p => coord i p - m) v v' ∧ refine' i m (v :: v' :: l) = v :: refine' i m (v' :: l)) ∨
      ∃ c, c = crossing (coord i v - m) (coord i v' - m) v v' ∧
        (decide (coord i v - m > 0) != decide (coord i v' - m > 0)) = true ∧
        coord i v - m ≠ 0 ∧ coord i v' - m ≠ 0 ∧ coord i c - m = 0 ∧
        refine' i m (v :: v' :: l) = v :: c :: refine' i m (v' :: l) := by
  rw [refine']
  by_cases h3 : coord i v - m = 0 ∨ coord i v' - m = 0
  · rw [if_pos h3]
    exact Or.inl ⟨tame_of_zero h3, rfl⟩
  · rw [if_neg h3]
    by_cases h4 : (decide (coord i v - m > 0) != decide (coord i v' - m > 0)) = true
    · rw [if_pos h4]
      push Not at h3
      exact Or.inr ⟨_, rfl, h4, h3.1, h3.2, crossing_coord i m v v' (sides_ne h4), rfl⟩
    · rw [if_neg h4]
      push Not at h3
      exact Or.inl ⟨tame_of_same h4 h3.2, rfl⟩

theorem refine_chain (i : Fin 3) (m : K) (v : Vec K) (l : List (Vec K)) (z : Vec K) :
    (refine' i m (v :: l ++ [z]) ++ [z]).IsChain (Tame fun p => coord i p - m) := by
  have key : ∀ (v v' : Vec K) (rest tail : List (Vec K)), (∃ r, refine' i m (v' :: rest) ++ tail = v' :: r) →
      (refine' i m (v' :: rest) ++ tail).IsChain (Tame fun p => coord i p - m) →
      (refine' i m (v :: v' :: rest) ++ tail).IsChain (Tame fun p => coord i p - m) := by
    intro v v' rest tail ⟨r, hr⟩ hc
    rcases refine_step i m v v' rest with ⟨ht, e⟩ | ⟨c, -, -, -, -, hc0, e⟩
    · rw [e, List.cons_append]
      rw [hr] at hc ⊢
      exact List.IsChain.cons_cons ht hc
    · rw [e, List.cons_append, List.cons_append]
      rw [hr] at hc ⊢
      exact List.IsChain.cons_cons (tame_of_zero (Or.inr hc0)) (List.IsChain.cons_cons (tame_of_zero (Or.inl hc0)) hc)
  induction l generalizing v with
  | nil =>
    refine key v z [] [z] ⟨[], rfl⟩ ?_
    simp [refine']
  | cons u l ih =>
    refine key v u (l ++ [z]) [z] ?_ (ih u)
    obtain ⟨r, hr⟩ := refine_head i m u l z
    rw [List.cons_append] at hr
    exact ⟨r ++ [z], by rw [hr]; rfl⟩

theorem refine_along (i : Fin 3) (m : K) (E : Vec K → Vec K → K)
    (hE : ∀ a b, coord i a - m ≠ coord i b - m →
      E a (crossing (coord i a - m) (coord i b - m) a b) + E (crossing (coord i a - m) (coord i b - m) a b) b = E a b)
    (v : Vec K) (l : List (Vec K)) (z : Vec K) :
    along E (refine' i m (v :: l ++ [z]) ++ [z]) = along E (v :: l ++ [z]) := by
  have key : ∀ (v v' : Vec K) (rest tail : List (Vec K)), (∃ r, refine' i m (v' :: rest) ++ tail = v' :: r) →
      along E (refine' i m (v :: v' :: rest) ++ tail) = E v v' + along E (refine' i m (v' :: rest) ++ tail) := by
    intro v v' rest tail ⟨r, hr⟩
    rcases refine_step i m v v' rest with ⟨ht, e⟩ | ⟨c, hc, hd, -, -, hc0, e⟩
    · rw [e, List.cons_append, hr]
      rfl
    · rw [e, List.cons_append, List.cons_append, hr]
      have := hE v v' (sides_ne hd)
      rw [← hc] at this
      simp only [along]
      rw [← this]
      ring
  induction l generalizing v with
  | nil =>
    have := key v z [] [z] ⟨[], rfl⟩
    simp only [List.cons_append, List.nil_append]
    rw [this]
    simp [refine', along]
  | cons u l ih =>
    obtain ⟨r, hr⟩ := refine_head i m u l z
    have := key v u (l ++ [z]) [z] ⟨r ++ [z], by rw [← List.cons_append, hr]; rfl⟩
    have ih := ih u
    simp only [List.cons_append] at ih this ⊢
    rw [this, ih]
    rfl

/-- What holds of the corners and of points between holds of all. -/
theorem refine_all (i : Fin 3) (m : K) (P : Vec K → Prop) (l : List (Vec K)) (hl : ∀ v ∈ l, P v)
    (hP : ∀ a b, P a → P b → (decide (coord i a - m > 0) != decide (coord i b - m > 0)) = true → coord i a - m ≠ 0 →
      coord i b - m ≠ 0 → P (crossing (coord i a - m) (coord i b - m) a b)) :
    ∀ v ∈ refine' i m l, P v := by
  induction l with
  | nil => intro v hv; cases hv
  | cons a l ih =>
    cases l with
    | nil => intro v hv; cases hv
    | cons b l =>
      have ih := ih fun v hv => hl v (List.mem_cons_of_mem _ hv)
      have ha := hl a List.mem_cons_self
      have hb := hl b (List.mem_cons_of_mem _ List.mem_cons_self)
      intro v hv
      rcases refine_step i m a b l with ⟨-, e⟩ | ⟨c, hc, hd, h0, h1, -, e⟩
      · rw [e] at hv
        rcases List.mem_cons.1 hv with rfl | hv
        · exact ha
        · exact ih v hv
      · rw [e] at hv
        rcases List.mem_cons.1 hv with rfl | hv
        · exact ha
        · rcases List.mem_cons.1 hv with rfl | hv
          · rw [hc]
            exact hP a b ha hb hd h0 h1
          · exact ih v hv

theorem refine_mem (i : Fin 3) (m : K) (v : Vec K) (l : List (Vec K)) (z u : Vec K) (hu : u ∈ v :: l) :
    u ∈ refine' i m (v :: l ++ [z]) := by
  have key : ∀ (v v' : Vec K) (rest : List (Vec K)), (u = v ∨ u ∈ refine' i m (v' :: rest)) →
      u ∈ refine' i m (v :: v' :: rest) := by
    intro v v' rest h
    rcases refine_step i m v v' rest with ⟨-, e⟩ | ⟨c, -, -, -, -, -, e⟩
    · rw [e]
      rcases h with rfl | h
      · exact List.mem_cons_self
      · exact List.mem_cons_of_mem _ h
    · rw [e]
      rcases h with rfl | h
      · exact List.mem_cons_self
      · exact List.mem_cons_of_mem _ (List.mem_cons_of_mem _ h)
  induction l generalizing v with
  | nil =>
    rw [List.mem_singleton] at hu
    exact key v z [] (Or.inl hu)
  | cons w l ih =>
    refine key v w (l ++ [z]) ?_
    rcases List.mem_cons.1 hu with hu | hu
    · exact Or.inl hu
    · exact Or.inr (ih w hu)

theorem crossing_between (i : Fin 3) (m : K) (a b : Vec K)
    (h : (decide (coord i a - m > 0) != decide (coord i b - m > 0)) = true) (ha : coord i a - m ≠ 0)
    (hb : coord i b - m ≠ 0) (n : Vec K) :
    ∃ t, 0 ≤ t ∧ t ≤ 1 ∧ dot n (crossing (coord i a - m) (coord i b - m) a b) = (1 - t) * dot n a + t * dot n b := by
  generalize hd : coord i a - m = d at *
  generalize hd' : coord i b - m = d' at *
  have key : 0 ≤ d / (d - d') ∧ d / (d - d') ≤ 1 := by
    rcases lt_or_gt_of_ne ha with h1 | h1
    · rcases lt_or_gt_of_ne hb with h2 | h2
      · rw [decide_eq_false (not_lt.2 (le_of_lt h1)), decide_eq_false (not_lt.2 (le_of_lt h2))] at h
        cases h
      · have : d - d' < 0 := by linarith
        exact ⟨div_nonneg_of_nonpos (le_of_lt h1) (le_of_lt this), by rw [div_le_one_of_neg this]; linarith⟩
    · rcases lt_or_gt_of_ne hb with h2 | h2
      · have : 0 < d - d' := by linarith
        exact ⟨div_nonneg (le_of_lt h1) (le_of_lt this), by rw [div_le_one this]; linarith⟩
      · rw [decide_eq_true h1, decide_eq_true h2] at h
        cases h
  refine ⟨d / (d - d'), key.1, key.2, ?_⟩
  unfold crossing
  simp only [dot]
  generalize d / (d - d') = t
  ring

theorem inside_self (vs : List (Vec K)) (v : Vec K) (h : v ∈ vs) : Inside vs v := fun _ _ hn => hn v h

theorem inside_refine (i : Fin 3) (m : K) (v : Vec K) (vs : List (Vec K)) :
    ∀ p ∈ refine' i m (v :: vs ++ [v]), Inside (v :: vs) p := by
  apply refine_all
  · intro u hu
    refine inside_self _ _ ?_
    rcases List.mem_append.1 hu with hu | hu
    · exact hu
    · rw [List.mem_singleton] at hu
      rw [hu]
      exact List.mem_cons_self
  · intro a b ha hb h h0 h1 n d hn
    obtain ⟨t, ht0, ht1, e⟩ := crossing_between i m a b h h0 h1 n
    rw [e]
    have h2 := ha n d hn
    have h3 := hb n d hn
    have h4 := mul_le_mul_of_nonneg_left h2 (by linarith : 0 ≤ 1 - t)
    have h5 := mul_le_mul_of_nonneg_left h3 ht0
    linarith

theorem inside_trans {vs us : List (Vec K)} {p : Vec K} (h : ∀ u ∈ us, Inside vs u) (hp : Inside us p) : Inside vs p :=
  fun n d hn => hp n d fun u hu => h u hu n d hn

theorem planar_of_inside {vs us : List (Vec K)} {n : Vec K} {d : K} (hv : Planar n d vs) (h : ∀ u ∈ us, Inside vs u) :
    Planar n d us := by
  intro u hu
  have h1 := h u hu n d fun v hv' => le_of_eq (hv v hv')
  have h2 := h u hu ⟨-n.x, -n.y, -n.z⟩ (-d) (by
    intro v hv'
    have := hv v hv'
    simp only [dot] at this ⊢
    linarith)
  simp only [dot] at h1 h2 ⊢
  linarith

theorem along_congr (E E' : Vec K → Vec K → K) (l : List (Vec K)) (h : ∀ a ∈ l, ∀ b ∈ l, E a b = E' a b) :
    along E l = along E' l := by
  induction l with
  | nil => rfl
  | cons a l ih =>
    cases l with
    | nil => rfl
    | cons b l =>
      simp only [along]
      rw [h a (by simp) b (by simp), ih fun x hx y hy => h x (List.mem_cons_of_mem _ hx) y (List.mem_cons_of_mem _ hy)]

theorem around_congr (E E' : Vec K → Vec K → K) (l : List (Vec K)) (h : ∀ a ∈ l, ∀ b ∈ l, E a b = E' a b) :
    around E l = around E' l := by
  cases l with
  | nil => rfl
  | cons a l =>
    have hm : ∀ x ∈ a :: l ++ [a], x ∈ a :: l := by
      intro x hx
      rcases List.mem_append.1 hx with hx | hx
      · exact hx
      · rw [List.mem_singleton] at hx
        rw [hx]
        exact List.mem_cons_self
    exact along_congr E E' _ fun x hx y hy => h x (hm x hx) y (hm y hy)

theorem area2_eq (n : Vec K) (vs : List (Vec K)) : area2 n vs = around (fun a b => dot n (cross a b)) vs := by
  cases vs <;> rfl

/-- Along the line of the cut, the sum depends on the ends only. -/
theorem line_potential (i : Fin 3) (m D : K) (n p q : Vec K) (hp : dot n p = D) (hq : dot n q = D)
    (hpq : coord i p ≠ coord i q) :
    ∃ g : Vec K → K, ∀ a b, dot n a = D → dot n b = D → coord i a - m = 0 → coord i b - m = 0 →
      dot n (cross a b) = g b - g a := by
  -- `r` is the square of the part of the normal across the axis, `k` that part turned by 90 degrees
  have main : ∀ (r κ : K) (k : Vec K → K), (r ≠ 0 → ∀ a b, dot n a = D → dot n b = D → coord i a - m = 0 →
      coord i b - m = 0 → r * dot n (cross a b) = κ * (k b - k a)) → (r = 0 → n.x = 0 ∧ n.y = 0 ∧ n.z = 0) →
      ∃ g : Vec K → K, ∀ a b, dot n a = D → dot n b = D → coord i a - m = 0 → coord i b - m = 0 →
      dot n (cross a b) = g b - g a := by
    intro r κ k h1 h2
    by_cases hr : r = 0
    · obtain ⟨e1, e2, e3⟩ := h2 hr
      exact ⟨fun _ => 0, fun a b _ _ _ _ => by simp [dot, e1, e2, e3]⟩
    · refine ⟨fun x => κ * k x / r, fun a b ha hb hc hd => ?_⟩
      have := h1 hr a b ha hb hc hd
      field_simp
      rw [← this]
      ring
  have sq : ∀ a b : K, a * a + b * b = 0 → a = 0 ∧ b = 0 := by
    intro a b h
    have h1 := mul_self_nonneg a
    have h2 := mul_self_nonneg b
    exact ⟨mul_self_eq_zero.1 (by linarith), mul_self_eq_zero.1 (by linarith)⟩
  match i with
  | 0 =>
    refine main (n.y * n.y + n.z * n.z) ((n.x * n.x + n.y * n.y + n.z * n.z) * m - n.x * D)
      (fun v => n.z * v.y - n.y * v.z) ?_ ?_
    · intro _ a b ha hb hc hd
      change a.x - m = 0 at hc
      change b.x - m = 0 at hd
      have e1 : a.x = m := by linarith
      have e2 : b.x = m := by linarith
      simp only [dot, cross] at *
      rw [e1] at ha ⊢
      rw [e2] at hb ⊢
      linear_combination (n.x * a.y * n.z - n.x * a.z * n.y) * (hb - ha)
        - n.x * (n.z * (b.y - a.y) - n.y * (b.z - a.z)) * ha
    · intro h
      obtain ⟨e1, e2⟩ := sq _ _ h
      change p.x ≠ q.x at hpq
      simp only [dot, e1, e2] at hp hq
      have : n.x * (p.x - q.x) = 0 := by linarith
      rcases mul_eq_zero.1 this with h | h
      · exact ⟨h, e1, e2⟩
      · exact absurd (sub_eq_zero.1 h) hpq
  | 1 =>
    refine main (n.z * n.z + n.x * n.x) ((n.x * n.x + n.y * n.y + n.z * n.z) * m - n.y * D)
      (fun v => n.x * v.z - n.z * v.x) ?_ ?_
    · intro _ a b ha hb hc hd
      change a.y - m = 0 at hc
      change b.y - m = 0 at hd
      have e1 : a.y = m := by linarith
      have e2 : b.y = m := by linarith
      simp only [dot, cross] at *
      rw [e1] at ha ⊢
      rw [e2] at hb ⊢
      linear_combination (n.y * a.z * n.x - n.y * a.x * n.z) * (hb - ha)
        - n.y * (n.x * (b.z - a.z) - n.z * (b.x - a.x)) * ha
    · intro h
      obtain ⟨e1, e2⟩ := sq _ _ h
      change p.y ≠ q.y at hpq
      simp only [dot, e1, e2] at hp hq
      have : n.y * (p.y - q.y) = 0 := by linarith
      rcases mul_eq_zero.1 this with h | h
      · exact ⟨e2, h, e1⟩
      · exact absurd (sub_eq_zero.1 h) hpq
  | 2 =>
    refine main (n.x * n.x + n.y * n.y) ((n.x * n.x + n.y * n.y + n.z * n.z) * m - n.z * D)
      (fun v => n.y * v.x - n.x * v.y) ?_ ?_
    · intro _ a b ha hb hc hd
      change a.z - m = 0 at hc
      change b.z - m = 0 at hd
      have e1 : a.z = m := by linarith
      have e2 : b.z = m := by linarith
      simp only [dot, cross] at *
      rw [e1] at ha ⊢
      rw [e2] at hb ⊢
      linear_combination (n.z * a.x * n.y - n.z * a.y * n.x) * (hb - ha)
        - n.z * (n.y * (b.x - a.x) - n.x * (b.y - a.y)) * ha
    · intro h
      obtain ⟨e1, e2⟩ := sq _ _ h
      change p.z ≠ q.z at hpq
      simp only [dot, e1, e2] at hp hq
      have : n.z * (p.z - q.z) = 0 := by linarith
      rcases mul_eq_zero.1 this with h | h
      · exact ⟨e1, e2, h⟩
      · exact absurd (sub_eq_zero.1 h) hpq

end Verif.SurfLights
