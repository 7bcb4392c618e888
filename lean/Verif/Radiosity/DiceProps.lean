import Verif.Radiosity.Dice
import Verif.SurfLights.SubdivideProps
import Verif.Geom.ClipProps
import Mathlib.Algebra.Order.Ring.Rat
import Mathlib.Data.Rat.Floor

/-!
Dicing a winding (C194).
-/

namespace Verif.Radiosity

open Verif.Geom Verif.Geom.Spec Verif.SurfLights

variable {K : Type} [Field K] [LinearOrder K] [IsStrictOrderedRing K] [FloorRing K]

omit [IsStrictOrderedRing K] in
theorem dicePlane_dist (s : K) (i : Fin 3) (v : Vec K) (vs : List (Vec K)) (u : Vec K) :
    (dicePlane s i v vs).distTo u = coord i u - s * (1 + ⌊(lo i v vs + 1) / s⌋) := by
  match i with
  | 0 => simp [Plane.distTo, dicePlane, dot, coord]
  | 1 => simp [Plane.distTo, dicePlane, dot, coord]
  | 2 => simp [Plane.distTo, dicePlane, dot, coord]

omit [IsStrictOrderedRing K] in
theorem dicePlane_unit (s : K) (i : Fin 3) (v : Vec K) (vs : List (Vec K)) : UnitNormal (dicePlane s i v vs) := by
  match i with
  | 0 => simp [UnitNormal, dicePlane, dot]
  | 1 => simp [UnitNormal, dicePlane, dot]
  | 2 => simp [UnitNormal, dicePlane, dot]

omit [FloorRing K] in
theorem inside_along (vs : List (Vec K)) (p q : Vec K) (t : K) (hp : Inside vs p) (hq : Inside vs q) (h0 : 0 ≤ t)
    (h1 : t ≤ 1) : Inside vs (Geom.Spec.along p q t) := by
  intro n d h
  have e : dot n (Geom.Spec.along p q t) = (1 - t) * dot n p + t * dot n q := by
    simp only [dot, Geom.Spec.along]
    ring
  rw [e]
  have a := mul_le_mul_of_nonneg_left (hp n d h) (sub_nonneg.2 h1)
  have b := mul_le_mul_of_nonneg_left (hq n d h) h0
  linarith

omit [FloorRing K] [IsStrictOrderedRing K] in
theorem mem_pairs {α : Type} {l : List α} {o : α × α} (h : o ∈ pairs l) : o.1 ∈ l ∧ o.2 ∈ l := by
  induction l with
  | nil => cases h
  | cons a l ih =>
    cases l with
    | nil => cases h
    | cons b l =>
      rw [pairs, List.mem_cons] at h
      rcases h with rfl | h
      · simp
      · obtain ⟨h1, h2⟩ := ih h
        exact ⟨List.mem_cons_of_mem _ h1, List.mem_cons_of_mem _ h2⟩

theorem clip_inside (s : K) (i : Fin 3) (v : Vec K) (vs f : List (Vec K))
    (h : (clip (dicePlane s i v vs) (1 / 10) false (v :: vs)).1 = some f ∨
      (clip (dicePlane s i v vs) (1 / 10) false (v :: vs)).2 = some f) : ∀ u ∈ f, Inside (v :: vs) u := by
  intro u hu
  have mem : ∀ u ∈ v :: vs, Inside (v :: vs) u := fun u hu n d h => h u hu
  rcases clip_vertices (by norm_num) (dicePlane_unit s i v vs) false (v :: vs) f h u hu with h | ⟨o, ho, t, h0, h1, e, -⟩
  · exact mem u h
  · rw [e]
    have hm : ∀ x, x ∈ v :: vs ++ [v] → x ∈ v :: vs := by
      intro x hx
      rcases List.mem_append.1 hx with hx | hx
      · exact hx
      · rw [List.mem_singleton] at hx
        rw [hx]
        exact List.mem_cons_self
    obtain ⟨o1, o2⟩ := mem_pairs (show o ∈ pairs (v :: vs ++ [v]) from ho)
    exact inside_along _ _ _ _ (mem _ (hm _ o1)) (mem _ (hm _ o2)) (le_of_lt h0) (le_of_lt h1)

omit [FloorRing K] [IsStrictOrderedRing K] in
theorem inside_trans {us vs : List (Vec K)} {u : Vec K} (h : ∀ x ∈ us, Inside vs x) (hu : Inside us u) : Inside vs u :=
  fun n d hd => hu n d fun x hx => h x hx n d hd

omit [IsStrictOrderedRing K] in
theorem diceAxis_none (s : K) (v : Vec K) (vs : List (Vec K)) (h : diceAxis s v vs = none) (i : Fin 3) :
    ⌊(hi i v vs - 1) / s⌋ ≤ ⌊(lo i v vs + 1) / s⌋ := by
  unfold diceAxis at h
  rw [List.find?_eq_none] at h
  have := h i (by fin_cases i <;> simp)
  simpa using this

omit [IsStrictOrderedRing K] in
theorem diceAxis_some (s : K) (v : Vec K) (vs : List (Vec K)) (i : Fin 3) (h : diceAxis s v vs = some i) :
    ⌊(lo i v vs + 1) / s⌋ < ⌊(hi i v vs - 1) / s⌋ := by
  have := List.find?_some h
  simpa using this

omit [IsStrictOrderedRing K] in
/-- A call of `dice` that cuts. -/
theorem dice_cut (s : K) (fuel : Nat) (v : Vec K) (vs : List (Vec K)) (pieces : List (List (Vec K)))
    (h : dice s (fuel + 1) (v :: vs) = some pieces) :
    (diceAxis s v vs = none ∧ pieces = [v :: vs]) ∨
      ∃ i a b, diceAxis s v vs = some i ∧
        dice s fuel ((clip (dicePlane s i v vs) (1 / 10) false (v :: vs)).1.getD []) = some a ∧
        dice s fuel ((clip (dicePlane s i v vs) (1 / 10) false (v :: vs)).2.getD []) = some b ∧ pieces = a ++ b := by
  unfold dice at h
  split at h
  · next ha =>
    cases h
    exact Or.inl ⟨ha, rfl⟩
  · next i ha =>
    simp only at h
    split at h
    · next a b h1 h2 =>
      cases h
      exact Or.inr ⟨i, a, b, ha, h1, h2, rfl⟩
    · cases h

/-- The patches are at most about as wide as the subdivision: less than two units wider. They are not empty, and inside
the winding. -/
theorem patches_small (s : K) (hs : 0 < s) (fuel : Nat) (vs : List (Vec K)) (pieces : List (List (Vec K)))
    (h : dice s fuel vs = some pieces) :
    ∀ p ∈ pieces, p ≠ [] ∧ Within (s + 2) p ∧ ∀ u ∈ p, Inside vs u := by
  induction fuel generalizing vs pieces with
  | zero => cases h
  | succ fuel ih =>
    cases vs with
    | nil =>
      cases h
      intro p hp
      cases hp
    | cons v vs =>
      rcases dice_cut s fuel v vs pieces h with ⟨ha, rfl⟩ | ⟨i, a, b, -, h1, h2, rfl⟩
      · intro p hp
        rw [List.mem_singleton] at hp
        subst hp
        refine ⟨by simp, within_of_coord _ _ ?_, fun u hu n d hd => hd u hu⟩
        intro i x hx y hy
        have k := diceAxis_none s v vs ha i
        have l1 := (hi_spec i v vs).1 x hx
        have l2 := (lo_spec i v vs).1 y hy
        have f1 := Int.lt_floor_add_one ((hi i v vs - 1) / s)
        have f2 := Int.floor_le ((lo i v vs + 1) / s)
        have k' : (⌊(hi i v vs - 1) / s⌋ : K) ≤ ⌊(lo i v vs + 1) / s⌋ := by exact_mod_cast k
        have : (hi i v vs - 1) / s < (lo i v vs + 1) / s + 1 := by linarith
        have e : (lo i v vs + 1) / s + 1 = (lo i v vs + 1 + s) / s := by field_simp
        rw [e, div_lt_div_iff_of_pos_right hs] at this
        linarith
      · intro p hp
        have sub : ∀ o : Option (List (Vec K)), (∀ f, o = some f → ∀ u ∈ f, Inside (v :: vs) u) →
            ∀ u ∈ o.getD [], Inside (v :: vs) u := by
          intro o ho u hu
          cases o with
          | none => cases hu
          | some f => exact ho f rfl u hu
        rcases List.mem_append.1 hp with hp | hp
        · obtain ⟨a1, a2, a3⟩ := ih _ _ h1 p hp
          exact ⟨a1, a2, fun u hu => inside_trans (sub _ fun f hf => clip_inside s i v vs f (Or.inl hf)) (a3 u hu)⟩
        · obtain ⟨a1, a2, a3⟩ := ih _ _ h2 p hp
          exact ⟨a1, a2, fun u hu => inside_trans (sub _ fun f hf => clip_inside s i v vs f (Or.inr hf)) (a3 u hu)⟩

/-- Every corner of the winding is a corner of a patch; in particular there is a patch. -/
theorem patches_keep_corners (s : K) (fuel : Nat) (vs : List (Vec K)) (pieces : List (List (Vec K)))
    (h : dice s fuel vs = some pieces) : ∀ u ∈ vs, ∃ p ∈ pieces, u ∈ p := by
  induction fuel generalizing vs pieces with
  | zero => cases h
  | succ fuel ih =>
    cases vs with
    | nil =>
      intro u hu
      cases hu
    | cons v vs =>
      rcases dice_cut s fuel v vs pieces h with ⟨ha, rfl⟩ | ⟨i, a, b, -, h1, h2, rfl⟩
      · intro u hu
        exact ⟨_, by simp, hu⟩
      · intro u hu
        rcases (clip_keeps_vertices (by norm_num : (0 : K) ≤ 1 / 10) (dicePlane_unit s i v vs) false (v :: vs) u hu).2.2 with
          ⟨f, hf, huf⟩ | ⟨f, hf, huf⟩
        · rw [hf] at h1
          obtain ⟨p, hp, hup⟩ := ih _ _ h1 u huf
          exact ⟨p, List.mem_append_left _ hp, hup⟩
        · rw [hf] at h2
          obtain ⟨p, hp, hup⟩ := ih _ _ h2 u huf
          exact ⟨p, List.mem_append_right _ hp, hup⟩

/-- How often a winding is cut along an axis. -/
def cells (s : K) (i : Fin 3) : List (Vec K) → Nat
  | [] => 0
  | v :: vs => (⌊(hi i v vs - 1) / s⌋ - ⌊(lo i v vs + 1) / s⌋).toNat

theorem cells_le (s : K) (hs : 0 < s) (i : Fin 3) (us : List (Vec K)) (l h : K) (hl : ∀ u ∈ us, l ≤ coord i u)
    (hh : ∀ u ∈ us, coord i u ≤ h) : cells s i us ≤ (⌊(h - 1) / s⌋ - ⌊(l + 1) / s⌋).toNat := by
  cases us with
  | nil => exact Nat.zero_le _
  | cons u us =>
    obtain ⟨p, hp, ep⟩ := (hi_spec i u us).2
    obtain ⟨q, hq, eq⟩ := (lo_spec i u us).2
    have a1 : ⌊(hi i u us - 1) / s⌋ ≤ ⌊(h - 1) / s⌋ := by
      apply Int.floor_le_floor
      rw [div_le_div_iff_of_pos_right hs, ep]
      linarith [hh p hp]
    have a2 : ⌊(l + 1) / s⌋ ≤ ⌊(lo i u us + 1) / s⌋ := by
      apply Int.floor_le_floor
      rw [div_le_div_iff_of_pos_right hs, eq]
      linarith [hl q hq]
    change (⌊(hi i u us - 1) / s⌋ - ⌊(lo i u us + 1) / s⌋).toNat ≤ _
    omega

theorem cells_inside (s : K) (hs : 0 < s) (i : Fin 3) (v : Vec K) (vs us : List (Vec K))
    (h : ∀ u ∈ us, Inside (v :: vs) u) : cells s i us ≤ cells s i (v :: vs) :=
  cells_le s hs i us (lo i v vs) (hi i v vs) (fun u hu => (coord_inside i _ u _ (h u hu)).2 (lo_spec i v vs).1)
    (fun u hu => (coord_inside i _ u _ (h u hu)).1 (hi_spec i v vs).1)

/-- Dicing ends, for the sizes that are allowed. -/
theorem dice_ends (s : K) (hs : 1 ≤ s) (vs : List (Vec K)) : ∃ fuel, (dice s fuel vs).isSome = true := by
  have hs0 : 0 < s := lt_of_lt_of_le zero_lt_one hs
  have main : ∀ (fuel : Nat) (vs : List (Vec K)), cells s 0 vs + cells s 1 vs + cells s 2 vs < fuel →
      (dice s fuel vs).isSome = true := by
    intro fuel
    induction fuel with
    | zero => intro vs h; omega
    | succ fuel ih =>
      intro vs h
      cases vs with
      | nil => rfl
      | cons v vs =>
        unfold dice
        split
        · rfl
        · next i ha =>
          have hlt := diceAxis_some s v vs i ha
          have less : ∀ us : List (Vec K), (∀ u ∈ us, Inside (v :: vs) u) → cells s i us + 1 ≤ cells s i (v :: vs) →
              cells s 0 us + cells s 1 us + cells s 2 us < fuel := by
            intro us hin hi'
            have k := fun j => cells_inside s hs0 j v vs us hin
            have k0 := k 0
            have k1 := k 1
            have k2 := k 2
            match i with
            | 0 => omega
            | 1 => omega
            | 2 => omega
          have hc : cells s i (v :: vs) = (⌊(hi i v vs - 1) / s⌋ - ⌊(lo i v vs + 1) / s⌋).toNat := rfl
          have side := clip_stays_on_side (by norm_num : (0 : K) ≤ 1 / 10) (dicePlane_unit s i v vs) false (v :: vs)
          have front : (dice s fuel ((clip (dicePlane s i v vs) (1 / 10) false (v :: vs)).1.getD [])).isSome = true := by
            apply ih
            cases hf : (clip (dicePlane s i v vs) (1 / 10) false (v :: vs)).1 with
            | none =>
              simp only [Option.getD_none]
              change 0 + 0 + 0 < fuel
              have : cells s i (v :: vs) ≤ cells s 0 (v :: vs) + cells s 1 (v :: vs) + cells s 2 (v :: vs) := by
                match i with
                | 0 => omega
                | 1 => omega
                | 2 => omega
              omega
            | some f =>
              rw [Option.getD_some]
              have hin := clip_inside s i v vs f (Or.inl hf)
              refine less f hin ?_
              have := cells_le s hs0 i f (s * (1 + ⌊(lo i v vs + 1) / s⌋) - 1 / 10) (hi i v vs)
                (fun u hu => by
                  have := side.1 f hf u hu
                  rw [dicePlane_dist] at this
                  linarith)
                (fun u hu => (coord_inside i _ u _ (hin u hu)).1 (hi_spec i v vs).1)
              have fl : ⌊(lo i v vs + 1) / s⌋ + 1 ≤ ⌊(s * (1 + ⌊(lo i v vs + 1) / s⌋) - 1 / 10 + 1) / s⌋ := by
                rw [Int.le_floor, le_div_iff₀ hs0]
                push_cast
                linarith
              omega
          have back : (dice s fuel ((clip (dicePlane s i v vs) (1 / 10) false (v :: vs)).2.getD [])).isSome = true := by
            apply ih
            cases hf : (clip (dicePlane s i v vs) (1 / 10) false (v :: vs)).2 with
            | none =>
              simp only [Option.getD_none]
              change 0 + 0 + 0 < fuel
              have : cells s i (v :: vs) ≤ cells s 0 (v :: vs) + cells s 1 (v :: vs) + cells s 2 (v :: vs) := by
                match i with
                | 0 => omega
                | 1 => omega
                | 2 => omega
              omega
            | some f =>
              rw [Option.getD_some]
              have hin := clip_inside s i v vs f (Or.inr hf)
              refine less f hin ?_
              have := cells_le s hs0 i f (lo i v vs) (s * (1 + ⌊(lo i v vs + 1) / s⌋) + 1 / 10)
                (fun u hu => (coord_inside i _ u _ (hin u hu)).2 (lo_spec i v vs).1)
                (fun u hu => by
                  have := side.2 f hf u hu
                  rw [dicePlane_dist] at this
                  linarith)
              have fl : ⌊(s * (1 + ⌊(lo i v vs + 1) / s⌋) + 1 / 10 - 1) / s⌋ < ⌊(lo i v vs + 1) / s⌋ + 1 := by
                rw [Int.floor_lt, div_lt_iff₀ hs0]
                push_cast
                linarith
              omega
          simp only
          obtain ⟨a, ea⟩ := Option.isSome_iff_exists.1 front
          obtain ⟨b, eb⟩ := Option.isSome_iff_exists.1 back
          rw [ea, eb]
          rfl
  exact ⟨_, main _ vs (Nat.lt_succ_self _)⟩

omit [FloorRing K] in
/-- The middle of a winding is inside it. -/
theorem center_inside (vs : List (Vec K)) (hne : vs ≠ []) : Inside vs (center vs) := by
  intro n d h
  have hl : (0 : K) < vs.length := by
    have := List.length_pos_iff.2 hne
    exact_mod_cast this
  have key : ∀ (us : List (Vec K)) (c : Vec K), (∀ u ∈ us, dot n u ≤ d) →
      dot n (us.foldl (fun c p => (⟨c.x + p.x, c.y + p.y, c.z + p.z⟩ : Vec K)) c) ≤ dot n c + us.length * d := by
    intro us
    induction us with
    | nil => intro c _; simp
    | cons u us ih =>
      intro c hu
      rw [List.foldl_cons]
      have h1 := ih ⟨c.x + u.x, c.y + u.y, c.z + u.z⟩ fun x hx => hu x (List.mem_cons_of_mem _ hx)
      have h2 := hu u List.mem_cons_self
      have e : dot n ⟨c.x + u.x, c.y + u.y, c.z + u.z⟩ = dot n c + dot n u := by
        simp only [dot]
        ring
      rw [e] at h1
      rw [List.length_cons]
      push_cast
      linarith
  have k := key vs ⟨0, 0, 0⟩ h
  unfold center
  simp only
  generalize vs.foldl (fun c p => (⟨c.x + p.x, c.y + p.y, c.z + p.z⟩ : Vec K)) ⟨0, 0, 0⟩ = c at *
  have e : dot n ⟨c.x * (1 / vs.length), c.y * (1 / vs.length), c.z * (1 / vs.length)⟩ = dot n c / vs.length := by
    simp only [dot]
    field_simp
  rw [e, div_le_iff₀ hl]
  simp only [dot] at k ⊢
  linarith

/-- Non-vacuity: a strip of 100 by 8 is diced into four patches at a size of 32. -/
example : (dice (32 : ℚ) 6 [⟨0, 0, 0⟩, ⟨100, 0, 0⟩, ⟨100, 8, 0⟩, ⟨0, 8, 0⟩]).map List.length = some 4 := by
  decide +kernel

end Verif.Radiosity
