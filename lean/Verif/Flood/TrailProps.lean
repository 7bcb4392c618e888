import Verif.Flood.Trail
import Mathlib.Algebra.Order.Archimedean.Basic
import Mathlib.Algebra.Order.Field.Rat
import Mathlib.Tactic.Linarith
import Mathlib.Tactic.Ring

/-! C82: the points file of a leak. -/

set_option linter.unusedSectionVars false

namespace Verif.Flood

open Geom

variable {K : Type} [Field K] [LinearOrder K] [IsStrictOrderedRing K]

namespace Spec

/-- The points of one leg: they start at `p`, are `step` apart in the direction `dir`, and go on as long as more than
`step` of the length is left. -/
def Dots (step : K) (p dir : Vec K) (dist : K) (pts : List (Vec K)) : Prop :=
  pts = (List.range pts.length).map (fun i : Nat => along p dir (i * step)) ∧
    (∀ i < pts.length, dist - i * step > step) ∧ dist - pts.length * step ≤ step

/-- The points without -leakdist: both ends of every leg. -/
def Corners (p : Vec K) : List (Vec K) → List (Vec K)
  | [] => []
  | c :: cs => p :: c :: Corners c cs

end Spec

open Spec

theorem along_along (p dir : Vec K) (a b : K) : along (along p dir a) dir b = along p dir (a + b) := by
  simp only [along, Vec.mk.injEq]
  exact ⟨by ring, by ring, by ring⟩

theorem trailLoop_ok {step : K} (hs : 0 < step) (dir : Vec K) : ∀ (n : Nat) (p : Vec K) (dist : K), dist ≤ n * step →
    ∃ pts, (∀ fuel ≥ n, trailLoop step dir fuel p dist = some pts) ∧ Dots step p dir dist pts := by
  intro n
  induction n with
  | zero =>
    intro p dist hd
    have hd : dist ≤ 0 := by simpa using hd
    refine ⟨[], fun fuel _ => ?_, ?_⟩
    · unfold trailLoop; rw [if_neg (by linarith)]
    · exact ⟨rfl, by simp, by simp; linarith⟩
  | succ n ih =>
    intro p dist hd
    by_cases h : dist > step
    · obtain ⟨pts, h1, h2, h3, h4⟩ := ih (along p dir step) (dist - step) (by push_cast at hd; linarith)
      refine ⟨p :: pts, fun fuel hf => ?_, ?_, ?_, ?_⟩
      · obtain ⟨f, rfl⟩ : ∃ f, fuel = f + 1 := ⟨fuel - 1, by omega⟩
        unfold trailLoop
        rw [if_pos h]
        simp only
        rw [h1 f (by omega)]
        rfl
      · rw [List.length_cons, List.range_succ_eq_map, List.map_cons, List.map_map]
        congr 1
        · simp [along]
        · conv_lhs => rw [h2]
          refine List.map_congr_left fun i _ => ?_
          simp only [Function.comp, along_along]
          congr 1
          push_cast
          ring
      · intro i hi
        cases i with
        | zero => simpa using h
        | succ i =>
          have := h3 i (by simpa using hi)
          push_cast
          linarith
      · simp only [List.length_cons]
        push_cast
        linarith
    · refine ⟨[], fun fuel _ => ?_, rfl, by simp, by simp; linarith⟩
      unfold trailLoop; rw [if_neg h]

/-- **C82.** With a positive -leakdist every leg of the line is written as points that are that far apart, from the
start of the leg on, and writing ends. -/
theorem leak_trail [Archimedean K] (norm : Vec K → Vec K × K) {leakdist : Int} (hd : 0 < leakdist) (p q : Vec K) :
    ∃ pts N, (∀ fuel ≥ N, leakTrail norm leakdist fuel p q = some pts) ∧
      Dots (leakdist : K) p (norm (vecSub q p)).1 (norm (vecSub q p)).2 pts := by
  have hs : (0 : K) < (leakdist : K) := by exact_mod_cast hd
  obtain ⟨n, hn⟩ := Archimedean.arch (norm (vecSub q p)).2 hs
  rw [nsmul_eq_mul] at hn
  obtain ⟨pts, h1, h2⟩ := trailLoop_ok hs (norm (vecSub q p)).1 n p _ hn
  refine ⟨pts, n, fun fuel hf => ?_, h2⟩
  unfold leakTrail
  rw [if_pos (by omega)]
  exact h1 fuel hf

/-- **C82, whole file.** With a positive -leakdist the file ends; its points are those of the legs, one after the other,
and each leg starts where the last one was to end. -/
theorem leak_file [Archimedean K] (norm : Vec K → Vec K × K) {leakdist : Int} (hd : 0 < leakdist) :
    ∀ (cs : List (Vec K)) (p : Vec K), ∃ legs : List (List (Vec K)), (∃ N, ∀ fuel ≥ N,
      leakPoints norm leakdist fuel p cs = some legs.flatten) ∧ legs.length = cs.length ∧
      ∀ (i : Nat) (leg : List (Vec K)) (a b : Vec K), legs[i]? = some leg → (p :: cs)[i]? = some a → cs[i]? = some b →
        Dots (leakdist : K) a (norm (vecSub b a)).1 (norm (vecSub b a)).2 leg := by
  intro cs
  induction cs with
  | nil => intro p; exact ⟨[], ⟨0, fun _ _ => rfl⟩, rfl, by simp⟩
  | cons c cs ih =>
    intro p
    obtain ⟨pts, N, h1, h2⟩ := leak_trail norm hd p c
    obtain ⟨legs, ⟨N', h3⟩, h4, h5⟩ := ih c
    refine ⟨pts :: legs, ⟨N + N', fun fuel hf => ?_⟩, by simp [h4], ?_⟩
    · simp only [leakPoints]
      rw [h1 fuel (by omega), h3 fuel (by omega)]
      rfl
    · intro i leg a b hi ha hb
      cases i with
      | zero =>
        simp only [List.getElem?_cons_zero, Option.some.injEq] at hi ha hb
        subst hi; subst ha; subst hb
        exact h2
      | succ i =>
        simp only [List.getElem?_cons_succ] at hi ha hb
        exact h5 i leg a b hi ha hb

/-- **C82, default.** Without -leakdist the file holds both ends of every leg. -/
theorem leak_corners (norm : Vec K → Vec K × K) (fuel : Nat) : ∀ (cs : List (Vec K)) (p : Vec K),
    leakPoints norm 0 fuel p cs = some (Corners p cs) := by
  intro cs
  induction cs with
  | nil => intro p; rfl
  | cons c cs ih => intro p; simp [leakPoints, leakTrail, ih, Corners]

/-- **C82 fails for negative distances.** With a negative -leakdist writing the first leg never ends: the length that is
left grows. -/
theorem leak_endless (norm : Vec K → Vec K × K) {leakdist : Int} (hd : leakdist < 0) (p q : Vec K)
    (hn : 0 ≤ (norm (vecSub q p)).2) : ∀ fuel, leakTrail norm leakdist fuel p q = none := by
  have hs : (leakdist : K) < 0 := by exact_mod_cast hd
  have key : ∀ fuel (p dir : Vec K) (dist : K), 0 ≤ dist → trailLoop (leakdist : K) dir fuel p dist = none := by
    intro fuel
    induction fuel with
    | zero => intro p dir dist h; unfold trailLoop; rw [if_pos (by linarith)]
    | succ fuel ih =>
      intro p dir dist h
      unfold trailLoop
      rw [if_pos (by linarith)]
      simp only
      rw [ih _ _ _ (by linarith)]
      rfl
  intro fuel
  unfold leakTrail
  rw [if_pos (by omega)]
  exact key fuel p _ _ hn

/-- Non-vacuity: a leg of length 10 along the x axis, with dots 3 apart. -/
example : leakTrail (K := ℚ) (fun v => (⟨1, 0, 0⟩, v.x)) 3 5 ⟨2, 0, 0⟩ ⟨12, 0, 0⟩ =
    some [⟨2, 0, 0⟩, ⟨5, 0, 0⟩, ⟨8, 0, 0⟩] := by decide +kernel

end Verif.Flood
