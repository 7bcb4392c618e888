import Verif.BrushBsp.ExampleProps
import Verif.BrushBsp.ChopProps

/-! Chopping of boxes: instances of the hypotheses, brushes that overlap afterwards, and a slice that is lost. -/

namespace Verif.BrushBsp.Ex

open Geom Geom.Spec Spec

def cenv : ChopEnv ℚ (List Nat) := { env with
  isSolid := fun c => c ≠ [9]
  noChop := fun n => n = 7 }

instance (n : Nat) (b : Brush ℚ (List Nat)) : Decidable (CleanCut cenv.toEnv n b) :=
  inferInstanceAs (Decidable (CleanCut env n b))

instance (n : Nat) (b : Brush ℚ (List Nat)) : Decidable (SharpCut cenv.toEnv n b) := by
  unfold SharpCut; infer_instance

/-- A brush made from planes is closed. -/
theorem closedBy {r b : Brush ℚ (List Nat)} (made : createWindings env (1 / 10000) r = .ok (true, b)) (hs : ∀ s ∈ r.sides, s.bevel = false)
    (core : ∃ c, ∀ s ∈ r.sides, (env.planes s.planenum).distTo c < 0)
    (inb : ∀ q, Inside env r q → InBox ⟨⟨-200, -200, -200⟩, ⟨200, 200, 200⟩⟩ q)
    (near : ∀ x ∈ r.sides.zipIdx, NoneNearBy env (1 / 10000) x.2 r.sides.zipIdx (env.base (env.planes x.1.planenum)))
    (ne : ∀ s ∈ b.sides, s.w ≠ []) : Closed env b := by
  obtain ⟨v, b', e, _, _, h⟩ := windings_close_partial planesOk (by decide +kernel : (0 : ℚ) ≤ env.worldextent)
    (by norm_num : (0 : ℚ) ≤ 1 / 10000) (b := r) hs core (fun q hq => by
      obtain ⟨⟨a1, a2⟩, ⟨a3, a4⟩, ⟨a5, a6⟩⟩ := inb q hq
      simp only at a1 a2 a3 a4 a5 a6
      show q.x * q.x + q.y * q.y + q.z * q.z ≤ 4096 * 4096
      nlinarith) near
  rw [made] at e
  obtain ⟨rfl, rfl⟩ : v = true ∧ b' = b := by
    injection e with e
    injection e with e1 e2
    exact ⟨e1.symm, e2.symm⟩
  exact h (fun s hs he => absurd he (ne s hs))

/-- Three boxes: the middle one overlaps both others. -/
def raw1 := raw [14, 1, 6, 5, 10, 9] [1]
def raw2 := raw [12, 17, 22, 21, 10, 9] [2]
def raw3 := raw [18, 3, 6, 5, 10, 9] [3]
/-- A box that ends 0.05 before another one. -/
def raw4 := raw [28, 17, 6, 5, 10, 9] [4]
def box1 := box [14, 1, 6, 5, 10, 9] 0 96 0 64 0 64 [1]
def box2 := box [12, 17, 22, 21, 10, 9] (-24) 32 (-24) 88 0 64 [2]
def box3 := box [18, 3, 6, 5, 10, 9] 64 120 0 64 0 64 [3]
def box4 := box [28, 17, 6, 5, 10, 9] (-24) (1279 / 20) 0 64 0 64 [4]

local macro "box_bounds" h:ident a:term:arg b:term:arg c:term:arg d:term:arg e:term:arg f:term:arg : tactic => `(tactic| (
  have h1 := $h (side $a) (by decide)
  have h2 := $h (side $b) (by decide)
  have h3 := $h (side $c) (by decide)
  have h4 := $h (side $d) (by decide)
  have h5 := $h (side $e) (by decide)
  have h6 := $h (side $f) (by decide)
  simp [env, planes, side, table, axisVec, Plane.distTo, dot] at h1 h2 h3 h4 h5 h6
  refine ⟨⟨?_, ?_⟩, ⟨?_, ?_⟩, ⟨?_, ?_⟩⟩ <;> simp only <;> linarith))

theorem closed1 : Closed env box1 :=
  closedBy (r := raw1) (by decide +kernel) (by decide) ⟨⟨48, 32, 32⟩, by decide +kernel⟩
    (fun q h => by box_bounds h 14 1 6 5 10 9) (by decide +kernel) (by decide +kernel)

theorem closed2 : Closed env box2 :=
  closedBy (r := raw2) (by decide +kernel) (by decide) ⟨⟨0, 32, 32⟩, by decide +kernel⟩
    (fun q h => by box_bounds h 12 17 22 21 10 9) (by decide +kernel) (by decide +kernel)

theorem closed3 : Closed env box3 :=
  closedBy (r := raw3) (by decide +kernel) (by decide) ⟨⟨100, 32, 32⟩, by decide +kernel⟩
    (fun q h => by box_bounds h 18 3 6 5 10 9) (by decide +kernel) (by decide +kernel)

theorem closed4 : Closed env box4 :=
  closedBy (r := raw4) (by decide +kernel) (by decide) ⟨⟨0, 32, 32⟩, by decide +kernel⟩
    (fun q h => by box_bounds h 28 17 6 5 10 9) (by decide +kernel) (by decide +kernel)

/-- The three boxes are chopped in four rounds; the cuts are sharp. -/
theorem chops : (chopBrushes cenv true 4 [box1, box2, box3]).isSome ∧
    ∀ c ∈ chopCuts cenv true 4 [box1, box2, box3], SharpCut cenv.toEnv c.1 c.2 := by decide +kernel

theorem closed123 : ∀ b ∈ [box1, box2, box3], Closed cenv.toEnv b := by
  intro b hb
  simp only [List.mem_cons, List.not_mem_nil, or_false] at hb
  rcases hb with rfl | rfl | rfl
  · exact closed1
  · exact closed2
  · exact closed3

/-- The bound of `chop_ends` holds for the boxes. -/
example : (chopBrushes cenv true (3 * 2 ^ 36) [box1, box2, box3]).isSome := by
  refine chop_ends planesOk closed123 (by decide +kernel) ?_
  unfold chopCuts
  rw [cuts_stable 4 _ _ chops.1 (by norm_num)]
  exact fun c hc => (chops.2 c hc).1

/-- The theorems about points and overlaps apply to the boxes. -/
example : ∃ out, chopBrushes cenv true 4 [box1, box2, box3] = some out ∧
    ((∃ b ∈ out, Inside cenv.toEnv b ⟨16, 32, 32⟩) ↔ ∃ b ∈ [box1, box2, box3], Inside cenv.toEnv b ⟨16, 32, 32⟩) ∧
    out.Pairwise fun x y => Takes cenv x → Takes cenv y → Whole x →
      ¬ ∃ p, Within cenv.toEnv x p ∧ Within cenv.toEnv y p := by
  obtain ⟨out, h⟩ := Option.isSome_iff_exists.1 chops.1
  exact ⟨out, h, (chop_keeps_points planesOk closed123 chops.2 h _).1, chop_no_overlap_partial planesOk closed123 chops.2 h⟩

/-- A brush that is not solid and one that must not be chopped stay. -/
example : (chopBrushes cenv true 5 [box1, { box2 with contents := [9] }, { box3 with orig := 7 }, box4]).map (·.length) =
    some 4 := by decide +kernel

/-- Without fragmentation a long box is not cut out of the middle of another one; with it, it is. -/
example : (chopBrushes cenv false 5 [box2, boxA]).map (·.length) = some 2 ∧
    (chopBrushes cenv true 5 [{ box2 with contents := [1] }, box [2, 1, 6, 5, 26, 25] 0 64 0 64 (-24) 88 [2]]).map (·.length) =
      some 4 ∧
    (chopBrushes cenv false 5 [{ box2 with contents := [1] }, box [2, 1, 6, 5, 26, 25] 0 64 0 64 (-24) 88 [2]]).map (·.length) =
      some 2 := by decide +kernel

/-- C104, negation: three closed solid brushes with sharp cuts, of which two overlap after chopping. The brush that was
cut is not looked at again: `b1_it` is set behind its pieces (qbsp/brushbsp.cc:1527-1529). -/
theorem chopped_brushes_overlap : ∃ bs out : List (Brush ℚ (List Nat)), (∀ b ∈ bs, Closed cenv.toEnv b ∧ Takes cenv b ∧ Whole b) ∧
    (∀ c ∈ chopCuts cenv true 4 bs, SharpCut cenv.toEnv c.1 c.2) ∧ chopBrushes cenv true 4 bs = some out ∧
    ∃ x y, [x, y].Sublist out ∧ Takes cenv x ∧ Takes cenv y ∧
      ∃ p, Within cenv.toEnv x p ∧ Within cenv.toEnv y p := by
  obtain ⟨out, h⟩ := Option.isSome_iff_exists.1 chops.1
  refine ⟨[box1, box2, box3], out, fun b hb => ⟨closed123 b hb, ?_, ?_⟩, chops.2, h, ?_⟩
  · have : ∀ b ∈ [box1, box2, box3], cenv.isSolid b.contents = true ∧ cenv.noChop b.orig = false := by decide +kernel
    exact this b hb
  · have : ∀ b ∈ [box1, box2, box3], ∀ s ∈ b.sides, s.onnode = false := by decide +kernel
    exact this b hb
  · have key : (match chopBrushes cenv true 4 [box1, box2, box3] with
        | some (x :: y :: z :: _) => decide ((cenv.isSolid x.contents = true ∧ cenv.noChop x.orig = false) ∧
            (cenv.isSolid z.contents = true ∧ cenv.noChop z.orig = false) ∧
            Within cenv.toEnv x ⟨80, 32, 32⟩ ∧ Within cenv.toEnv z ⟨80, 32, 32⟩)
        | _ => false) = true := by decide +kernel
    rw [h] at key
    match out, key with
    | x :: y :: z :: l, key =>
      simp only [decide_eq_true_eq] at key
      exact ⟨x, z, by simp, key.1, key.2.1, _, key.2.2⟩

/-- C103, negation without sharp cuts: two closed brushes with clean cuts, one of them reaches 0.05 out of the other and
is swallowed. The point in the slice is in no brush afterwards. -/
theorem chop_loses_points : ∃ (bs out : List (Brush ℚ (List Nat))) (p : Vec ℚ), (∀ b ∈ bs, Closed cenv.toEnv b) ∧
    (∀ c ∈ chopCuts cenv true 4 bs, CleanCut cenv.toEnv c.1 c.2) ∧ chopBrushes cenv true 4 bs = some out ∧
    (∃ b ∈ bs, Within cenv.toEnv b p) ∧ ¬ ∃ b ∈ out, Inside cenv.toEnv b p := by
  refine ⟨[boxA, box4], [box4], ⟨1279 / 20 + 1 / 40, 32, 32⟩, ?_, by decide +kernel, by decide +kernel, by decide +kernel,
    by decide +kernel⟩
  intro b hb
  simp only [List.mem_cons, List.not_mem_nil, or_false] at hb
  rcases hb with rfl | rfl
  · exact closedA
  · exact closed4

end Verif.BrushBsp.Ex
