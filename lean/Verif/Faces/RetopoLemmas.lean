import Verif.Faces.OutlineLemmas
import Mathlib.Data.List.Basic
import Mathlib.Tactic.ByContra

/-! Lemmas about retopology. -/

namespace Verif.Faces

open Spec

theorem wind_stop (t : Tests) (input : List Nat) (seed wrap : Nat) (h3 : 3 ≤ input.length) (hw : wrap < input.length) :
    ∀ (fuel r : Nat), 1 ≤ r → r ≤ input.length → input.length - r ≤ fuel →
      ∃ q, q ≤ input.length - 2 ∧
        windLoop t input seed wrap fuel ((wrap + r) % input.length) = some ((wrap + q) % input.length) := by
  intro fuel
  induction fuel with
  | zero =>
    intro r h1 h2 h
    have : r = input.length := by omega
    subst this
    refine ⟨0, by omega, ?_⟩
    unfold windLoop
    rw [if_pos (by rw [Nat.add_mod_right, Nat.mod_eq_of_lt hw])]
    simp [Nat.add_mod_right]
  | succ fuel ih =>
    intro r h1 h2 h
    unfold windLoop
    by_cases hs : (wrap + r) % input.length = wrap
    · rw [if_pos hs, hs]
      exact ⟨0, by omega, by rw [Nat.add_zero, Nat.mod_eq_of_lt hw]⟩
    · rw [if_neg hs]
      have hr : r ≠ input.length := by
        rintro rfl
        exact hs (by rw [Nat.add_mod_right, Nat.mod_eq_of_lt hw])
      split
      · refine ⟨r - 1, by omega, ?_⟩
        congr 1
        have hcase : wrap + r < input.length ∨ (input.length ≤ wrap + r ∧ wrap + r < 2 * input.length) := by omega
        rcases hcase with hc | ⟨hc1, hc2⟩
        · rw [Nat.mod_eq_of_lt hc, if_neg (by omega), Nat.mod_eq_of_lt (by omega)]
          omega
        · have e : (wrap + r) % input.length = wrap + r - input.length := by
            rw [Nat.mod_eq_sub_mod hc1, Nat.mod_eq_of_lt (by omega)]
          rw [e]
          by_cases h0 : wrap + r - input.length = 0
          · rw [if_pos h0, Nat.mod_eq_of_lt (by omega)]
            omega
          · rw [if_neg h0, Nat.mod_eq_sub_mod (a := wrap + (r - 1)) (by omega), Nat.mod_eq_of_lt (by omega)]
            omega
      · have e : ((wrap + r) % input.length + 1) % input.length = (wrap + (r + 1)) % input.length := by
          rw [Nat.mod_add_mod, Nat.add_assoc]
        simp only
        rw [e]
        exact ih (r + 1) (by omega) (by omega) (by omega)

/-- Where the winding ends: never at the vertex after the seed. -/
theorem wind_cases (t : Tests) (input : List Nat) (seed : Nat) (h3 : 3 ≤ input.length) (hs : seed < input.length) :
    ∃ stop, windLoop t input seed ((seed + 2) % input.length) input.length (((seed + 2) % input.length + 1) % input.length)
        = some stop ∧ stop < input.length ∧
      (seed ≠ stop → stop ≠ (seed + 2) % input.length → stop < seed → stop + input.length ≥ seed + 3) ∧
      (seed ≠ stop → stop ≠ (seed + 2) % input.length → ¬ stop < seed → seed + 3 ≤ stop) := by
  have hw : (seed + 2) % input.length < input.length := Nat.mod_lt _ (by omega)
  obtain ⟨q, hq, e⟩ := wind_stop t input seed _ h3 hw input.length 1 (by omega) (by omega) (by omega)
  refine ⟨_, e, Nat.mod_lt _ (by omega), ?_, ?_⟩
  all_goals
    have e2 : ((seed + 2) % input.length + q) % input.length = (seed + 2 + q) % input.length := by rw [Nat.mod_add_mod]
    rw [e2]
    intro h1 h2 h3'
    have hq0 : q ≠ 0 := by rintro rfl; exact h2 (by rw [Nat.add_zero])
    by_cases hc : seed + 2 + q < input.length
    · rw [Nat.mod_eq_of_lt hc] at h1 h2 h3' ⊢
      omega
    · rw [Nat.mod_eq_sub_mod (by omega), Nat.mod_eq_of_lt (by omega)] at h1 h2 h3' ⊢
      omega

theorem findSeed_lt {t : Tests} {input : List Nat} {seed : Nat} (h : findSeed t input = some seed) : seed < input.length := by
  unfold findSeed at h
  have := List.mem_of_find?_eq_some h
  simpa using this

theorem list_split2 (input : List Nat) {a b : Nat} (h1 : a < b) (h2 : b < input.length) :
    input = input.take a ++ input.getD a 0 :: ((input.drop (a + 1)).take (b - a - 1) ++ input.getD b 0 :: input.drop (b + 1)) := by
  have ha : a < input.length := by omega
  have e1 : input = input.take a ++ input.drop a := (List.take_append_drop a input).symm
  have e2 : input.drop a = input.getD a 0 :: input.drop (a + 1) := by
    rw [List.drop_eq_getElem_cons ha, List.getD_eq_getElem?_getD, List.getElem?_eq_getElem ha, Option.getD_some]
  have e3 : input.drop (a + 1) = (input.drop (a + 1)).take (b - a - 1) ++ input.drop b := by
    conv_lhs => rw [← List.take_append_drop (b - a - 1) (input.drop (a + 1))]
    rw [List.drop_drop]
    congr 2
    omega
  have e4 : input.drop b = input.getD b 0 :: input.drop (b + 1) := by
    rw [List.drop_eq_getElem_cons h2, List.getD_eq_getElem?_getD, List.getElem?_eq_getElem h2, Option.getD_some]
  conv_lhs => rw [e1, e2, e3, e4]

theorem take_succ_getD (input : List Nat) {a : Nat} (h : a < input.length) :
    input.take (a + 1) = input.take a ++ [input.getD a 0] := by
  rw [List.take_add_one, List.getElem?_eq_getElem h, List.getD_eq_getElem?_getD, List.getElem?_eq_getElem h]
  rfl

theorem drop_getD (input : List Nat) {a : Nat} (h : a < input.length) :
    input.drop a = input.getD a 0 :: input.drop (a + 1) := by
  rw [List.drop_eq_getElem_cons h, List.getD_eq_getElem?_getD, List.getElem?_eq_getElem h, Option.getD_some]

/-- A cut ahead of the seed. -/
theorem cut_ahead {A : Type} [AddCommGroup A] (φ : Nat → Nat → A) (hφ : Anti φ) (input : List Nat) {seed stop : Nat}
    (h1 : seed < stop) (h2 : stop < input.length) :
    flow φ ((input.drop seed).take (stop + 1 - seed)) + flow φ (input.take (seed + 1) ++ input.drop stop) = flow φ input := by
  have hs := list_split2 input h1 h2
  set P := input.take seed
  set s := input.getD seed 0
  set M := (input.drop (seed + 1)).take (stop - seed - 1) with hM
  set e := input.getD stop 0
  set Q := input.drop (stop + 1)
  have f1 : (input.drop seed).take (stop + 1 - seed) = s :: (M ++ [e]) := by
    rw [drop_getD input (show seed < input.length by omega)]
    have : stop + 1 - seed = (stop - seed - 1) + 1 + 1 := by omega
    rw [this, List.take_succ_cons, take_succ_getD]
    · congr 3
      rw [List.getD_eq_getElem?_getD, List.getElem?_drop]
      have : seed + 1 + (stop - seed - 1) = stop := by omega
      rw [this, ← List.getD_eq_getElem?_getD]
    · rw [List.length_drop]; omega
  have f2 : input.take (seed + 1) ++ input.drop stop = P ++ (s :: e :: Q) := by
    rw [take_succ_getD input (by omega), drop_getD input h2]
    simp [P, s, e, Q]
  rw [f1, f2, flow_rotate φ P, hs, flow_rotate φ P]
  have := flow_chord φ hφ s e M (Q ++ P)
  simp only [List.cons_append, List.append_assoc] at this ⊢
  exact this

/-- A cut behind the seed loses a triangle. -/
theorem cut_behind {A : Type} [AddCommGroup A] (φ : Nat → Nat → A) (hφ : Anti φ) (input : List Nat) {seed stop : Nat}
    (h1 : stop < seed) (h2 : seed < input.length) (h3 : stop + input.length ≥ seed + 3) :
    flow φ (input.drop seed ++ input.take stop) +
        flow φ [at' input (stop + input.length - 1), at' input stop, at' input seed] +
        flow φ ((input.drop stop).take (seed + 1 - stop)) = flow φ input := by
  have hs := list_split2 input h1 h2
  have hal : ∀ i, i < input.length → at' input i = input.getD i 0 := by
    intro i hi
    unfold at'
    rw [Nat.mod_eq_of_lt hi]
  rw [hal stop (by omega), hal seed h2]
  set P := input.take stop with hP
  set e := input.getD stop 0
  set M := (input.drop (stop + 1)).take (seed - stop - 1) with hM
  set s := input.getD seed 0
  set Q := input.drop (seed + 1) with hQ
  have f1 : (input.drop stop).take (seed + 1 - stop) = e :: (M ++ [s]) := by
    rw [drop_getD input (show stop < input.length by omega)]
    have : seed + 1 - stop = (seed - stop - 1) + 1 + 1 := by omega
    rw [this, List.take_succ_cons, take_succ_getD]
    · congr 3
      rw [List.getD_eq_getElem?_getD, List.getElem?_drop]
      have : stop + 1 + (seed - stop - 1) = seed := by omega
      rw [this, ← List.getD_eq_getElem?_getD]
    · rw [List.length_drop]; omega
  have f2 : input.drop seed ++ input.take stop = s :: (Q ++ P) := by
    rw [drop_getD input h2]
    rfl
  -- the vertex before the end
  have hne : Q ++ P ≠ [] := by
    intro h
    have := congrArg List.length h
    rw [List.length_append, hQ, hP, List.length_drop, List.length_take, List.length_nil] at this
    omega
  obtain ⟨R, z, hR⟩ : ∃ R z, Q ++ P = R ++ [z] := by
    rcases List.eq_nil_or_concat (Q ++ P) with h | ⟨R, z, h⟩
    · exact absurd h hne
    · exact ⟨R, z, by simpa using h⟩
  have hz : at' input (stop + input.length - 1) = z := by
    have hlast : (Q ++ P).getLast? = some z := by rw [hR]; simp
    by_cases h0 : stop = 0
    · have hPn : P = [] := by rw [hP, h0]; rfl
      rw [hPn, List.append_nil, hQ, List.getLast?_drop] at hlast
      rw [if_neg (by omega)] at hlast
      rw [List.getLast?_eq_getElem?] at hlast
      unfold at'
      rw [h0, Nat.zero_add, Nat.mod_eq_of_lt (by omega), List.getD_eq_getElem?_getD, hlast]
      rfl
    · have hPn : P ≠ [] := by
        intro h
        have := congrArg List.length h
        rw [hP, List.length_take, List.length_nil] at this
        omega
      rw [List.getLast?_append_of_ne_nil _ hPn, List.getLast?_eq_getElem?, hP, List.length_take,
        List.getElem?_take, if_pos (by omega)] at hlast
      have e1 : min stop input.length - 1 = stop - 1 := by omega
      rw [e1] at hlast
      unfold at'
      rw [Nat.mod_eq_sub_mod (by omega), Nat.mod_eq_of_lt (by omega), List.getD_eq_getElem?_getD]
      have e2 : stop + input.length - 1 - input.length = stop - 1 := by omega
      rw [e2, hlast]
      rfl
  rw [hz, f1, f2, hs, flow_rotate φ P]
  have c1 := flow_chord φ hφ e s M (Q ++ P)
  simp only [List.cons_append, List.append_assoc] at c1 ⊢
  rw [← c1, add_comm]
  congr 1
  rw [hR]
  -- the fan with the missing triangle
  have c2 := flow_chord φ hφ s z R [e]
  have r1 : flow φ (e :: s :: (R ++ [z])) = flow φ (s :: (R ++ z :: [e])) := by
    have := flow_rotate φ [e] (s :: (R ++ [z]))
    simpa using this
  have r2 : flow φ [z, e, s] = flow φ [s, z, e] := flow_rotate φ [z, e] [s]
  rw [r1, r2, ← c2]

theorem retopo_spec (t : Tests) :
    ∀ (N : Nat) (input : List Nat), input.length ≤ N → input ≠ [] →
      ∃ (r : Option (List (List Nat))) (cuts : List (List Nat × Nat × Nat)),
        (∀ fuel result, N ≤ fuel → retopologize t fuel input result =
          some (match r with | none => [] | some ps => result ++ ps)) ∧
        (∀ fuel, N ≤ fuel → retopoCuts t fuel input = cuts) ∧
        ∀ ps, r = some ps → ps ≠ [] ∧ (∀ p ∈ ps, 3 ≤ p.length) ∧ (∀ p ∈ ps, ∀ v ∈ p, v ∈ input) ∧
          triangles ps + (cuts.flatMap lostTriangle).length = input.length - 2 ∧
          ∀ (A : Type) [AddCommGroup A] (φ : Nat → Nat → A), Anti φ →
            flows φ ps + flows φ (cuts.flatMap lostTriangle) = flow φ input := by
  intro N
  induction N with
  | zero =>
    intro input h hne
    exact absurd (List.length_eq_zero_iff.mp (Nat.le_zero.mp h)) hne
  | succ N ih =>
    intro input hN hne
    have hl0 : input.length ≠ 0 := fun h => hne (List.length_eq_zero_iff.mp h)
    by_cases h3 : input.length < 3
    · refine ⟨none, [], ?_, ?_, by simp⟩
      · intro fuel result _
        unfold retopologize
        rw [if_neg hl0, if_pos h3]
      · intro fuel _
        cases fuel with
        | zero => rfl
        | succ fuel => rw [retopoCuts, if_pos h3]
    · rcases hseed : findSeed t input with _ | seed
      · refine ⟨none, [], ?_, ?_, by simp⟩
        · intro fuel result _
          unfold retopologize
          rw [if_neg hl0, if_neg h3, hseed]
        · intro fuel _
          cases fuel with
          | zero => rfl
          | succ fuel => rw [retopoCuts, if_neg h3, hseed]
      · have hsl := findSeed_lt hseed
        obtain ⟨stop, hw, hstop, hbeh, hah⟩ := wind_cases t input seed (by omega) hsl
        by_cases e1 : seed = stop
        · refine ⟨some [input], [], ?_, ?_, ?_⟩
          · intro fuel result _
            unfold retopologize
            rw [if_neg hl0, if_neg h3, hseed]
            simp only
            rw [hw]
            simp only
            rw [if_pos e1]
          · intro fuel _
            cases fuel with
            | zero => rfl
            | succ fuel =>
              rw [retopoCuts, if_neg h3, hseed]
              simp only
              rw [hw]
              simp only
              rw [if_pos e1]
          · intro ps h
            obtain rfl := (Option.some.inj h).symm
            refine ⟨by simp, by simp; omega, by simp, by simp [triangles], ?_⟩
            intro A _ φ hφ
            simp [flows]
        · by_cases e2 : stop = (seed + 2) % input.length
          · refine ⟨some [input.drop seed ++ input.take seed], [], ?_, ?_, ?_⟩
            · intro fuel result _
              unfold retopologize
              rw [if_neg hl0, if_neg h3, hseed]
              simp only
              rw [hw]
              simp only
              rw [if_neg e1, if_pos e2]
            · intro fuel _
              cases fuel with
              | zero => rfl
              | succ fuel =>
                rw [retopoCuts, if_neg h3, hseed]
                simp only
                rw [hw]
                simp only
                rw [if_neg e1, if_pos e2]
            · intro ps h
              obtain rfl := (Option.some.inj h).symm
              have hlen : (input.drop seed ++ input.take seed).length = input.length := by
                rw [List.length_append, List.length_drop, List.length_take]; omega
              refine ⟨by simp, ?_, ?_, ?_, ?_⟩
              · intro p hp
                rw [List.mem_singleton.mp hp, hlen]; omega
              · intro p hp v hv
                rw [List.mem_singleton.mp hp] at hv
                rcases List.mem_append.mp hv with hv | hv
                · exact List.mem_of_mem_drop hv
                · exact List.mem_of_mem_take hv
              · simp only [triangles, List.map_cons, List.map_nil, List.sum_cons, List.sum_nil, List.flatMap_nil,
                  List.length_nil, hlen, Nat.add_zero]
              · intro A _ φ hφ
                have := flow_rotate φ (input.take seed) (input.drop seed)
                rw [List.take_append_drop] at this
                simp [flows, this]
          · by_cases e3 : stop < seed
            · have hb := hbeh e1 e2 e3
              have hrl : ((input.drop stop).take (seed + 1 - stop)).length = seed + 1 - stop := by
                rw [List.length_take, List.length_drop]; omega
              have htl : (input.drop seed ++ input.take stop).length = input.length - seed + stop := by
                rw [List.length_append, List.length_drop, List.length_take]; omega
              obtain ⟨r, cuts, q1, q2, q3⟩ := ih ((input.drop stop).take (seed + 1 - stop)) (by rw [hrl]; omega)
                (by intro h; rw [h, List.length_nil] at hrl; omega)
              refine ⟨r.map fun ps => (input.drop seed ++ input.take stop) :: ps, (input, seed, stop) :: cuts, ?_, ?_, ?_⟩
              · intro fuel result hf
                obtain ⟨fuel, rfl⟩ : ∃ k, fuel = k + 1 := ⟨fuel - 1, by omega⟩
                unfold retopologize
                rw [if_neg hl0, if_neg h3, hseed]
                simp only
                rw [hw]
                simp only
                rw [if_neg e1, if_neg e2, if_pos e3, q1 fuel _ (by omega)]
                cases r <;> simp
              · intro fuel hf
                obtain ⟨fuel, rfl⟩ : ∃ k, fuel = k + 1 := ⟨fuel - 1, by omega⟩
                rw [retopoCuts, if_neg h3, hseed]
                simp only
                rw [hw]
                simp only
                rw [if_neg e1, if_neg e2, if_pos e3, q2 fuel (by omega)]
              · intro ps h
                rw [Option.map_eq_some_iff] at h
                obtain ⟨ps', h', rfl⟩ := h
                obtain ⟨a1, a2, a3, a4, a5⟩ := q3 ps' h'
                have hlost : ((input, seed, stop) :: cuts).flatMap lostTriangle =
                    [at' input (stop + input.length - 1), at' input stop, at' input seed] :: cuts.flatMap lostTriangle := by
                  rw [List.flatMap_cons, lostTriangle, if_pos e3]
                  rfl
                have hr3 : 3 ≤ seed + 1 - stop := by
                  by_contra hlt
                  have hres := q1 (N + (seed + 1)) [] (by omega)
                  rw [h'] at hres
                  unfold retopologize at hres
                  rw [if_neg (by rw [hrl]; omega), if_pos (by rw [hrl]; omega)] at hres
                  exact a1 (by simpa using (Option.some.inj hres).symm)
                refine ⟨by simp, ?_, ?_, ?_, ?_⟩
                · intro p hp
                  rcases List.mem_cons.mp hp with rfl | hp
                  · rw [htl]; omega
                  · exact a2 p hp
                · intro p hp v hv
                  rcases List.mem_cons.mp hp with rfl | hp
                  · rcases List.mem_append.mp hv with hv | hv
                    · exact List.mem_of_mem_drop hv
                    · exact List.mem_of_mem_take hv
                  · exact List.mem_of_mem_drop (List.mem_of_mem_take (a3 p hp v hv))
                · rw [hlost, List.length_cons]
                  simp only [triangles, List.map_cons, List.sum_cons] at a4 ⊢
                  rw [htl]
                  rw [hrl] at a4
                  omega
                · intro A _ φ hφ
                  have h1 := cut_behind φ hφ input e3 hsl hb
                  have h2 := a5 A φ hφ
                  rw [hlost, flows_cons, flows_cons, ← h1, ← h2]
                  abel
            · have hb := hah e1 e2 e3
              have hrl : (input.take (seed + 1) ++ input.drop stop).length = seed + 1 + (input.length - stop) := by
                rw [List.length_append, List.length_drop, List.length_take]; omega
              have htl : ((input.drop seed).take (stop + 1 - seed)).length = stop + 1 - seed := by
                rw [List.length_take, List.length_drop]; omega
              obtain ⟨r, cuts, q1, q2, q3⟩ := ih (input.take (seed + 1) ++ input.drop stop) (by rw [hrl]; omega)
                (by intro h; rw [h, List.length_nil] at hrl; omega)
              refine ⟨r.map fun ps => ((input.drop seed).take (stop + 1 - seed)) :: ps, (input, seed, stop) :: cuts, ?_, ?_, ?_⟩
              · intro fuel result hf
                obtain ⟨fuel, rfl⟩ : ∃ k, fuel = k + 1 := ⟨fuel - 1, by omega⟩
                unfold retopologize
                rw [if_neg hl0, if_neg h3, hseed]
                simp only
                rw [hw]
                simp only
                rw [if_neg e1, if_neg e2, if_neg e3, q1 fuel _ (by omega)]
                cases r <;> simp
              · intro fuel hf
                obtain ⟨fuel, rfl⟩ : ∃ k, fuel = k + 1 := ⟨fuel - 1, by omega⟩
                rw [retopoCuts, if_neg h3, hseed]
                simp only
                rw [hw]
                simp only
                rw [if_neg e1, if_neg e2, if_neg e3, q2 fuel (by omega)]
              · intro ps h
                rw [Option.map_eq_some_iff] at h
                obtain ⟨ps', h', rfl⟩ := h
                obtain ⟨a1, a2, a3, a4, a5⟩ := q3 ps' h'
                have hlost : ((input, seed, stop) :: cuts).flatMap lostTriangle = cuts.flatMap lostTriangle := by
                  rw [List.flatMap_cons, lostTriangle, if_neg e3]
                  rfl
                refine ⟨by simp, ?_, ?_, ?_, ?_⟩
                · intro p hp
                  rcases List.mem_cons.mp hp with rfl | hp
                  · rw [htl]; omega
                  · exact a2 p hp
                · intro p hp v hv
                  rcases List.mem_cons.mp hp with rfl | hp
                  · exact List.mem_of_mem_drop (List.mem_of_mem_take hv)
                  · rcases List.mem_append.mp (a3 p hp v hv) with hv | hv
                    · exact List.mem_of_mem_take hv
                    · exact List.mem_of_mem_drop hv
                · rw [hlost]
                  simp only [triangles, List.map_cons, List.sum_cons] at a4 ⊢
                  rw [htl]
                  rw [hrl] at a4
                  omega
                · intro A _ φ hφ
                  have h1 := cut_ahead φ hφ input (show seed < stop by omega) hstop
                  have h2 := a5 A φ hφ
                  rw [hlost, flows_cons, ← h1, ← h2]
                  abel

end Verif.Faces
