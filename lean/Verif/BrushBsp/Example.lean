import Verif.BrushBsp.Windings
import Verif.BrushBsp.LeafSpec
import Mathlib.Algebra.Order.Field.Rat

/-! Two boxes that overlap: an instance of the hypotheses of the theorems about the tree. -/

namespace Verif.BrushBsp.Ex

open Geom Spec

/-- Axes and distances. -/
def table : List (Fin 3 × ℚ) :=
  [(0, 0), (0, 64), (1, 0), (1, 64), (2, 0), (2, 64), (0, 32), (0, 96),
   (0, -24), (0, 120), (1, -24), (1, 88), (2, -24), (2, 88), (0, 1279 / 20)]

def axisVec (a : Fin 3) (s : ℚ) : Vec ℚ := match a with
  | 0 => ⟨s, 0, 0⟩
  | 1 => ⟨0, s, 0⟩
  | 2 => ⟨0, 0, s⟩

def planes (n : Nat) : Plane ℚ :=
  let e := (table[n / 2]?).getD (0, 0)
  if n % 2 = 0 then ⟨axisVec e.1 1, e.2⟩ else ⟨axisVec e.1 (-1), -e.2⟩

/-- The area of a polygon in an axial plane. -/
def area : List (Vec ℚ) → ℚ
  | a :: l => ((l.zip l.tail).map fun e =>
      let c := cross ⟨e.1.x - a.x, e.1.y - a.y, e.1.z - a.z⟩ ⟨e.2.x - a.x, e.2.y - a.y, e.2.z - a.z⟩
      (|c.x| + |c.y| + |c.z|) / 2).sum
  | [] => 0

def env : Env ℚ (List Nat) where
  planes := planes
  base := fromPlane id 4096
  area := area
  worldextent := 4096
  microvolume := 0
  huge := 100000
  isDetail := fun _ => false
  empty := []
  combine := fun a b => a ++ b
  metric := fun _ _ => 0
  midsplit := fun _ _ => false

def side (n : Nat) : Side ℚ := ⟨n, [], false, false, true, false, false⟩

def raw (ns : List Nat) (c : List Nat) : Brush ℚ (List Nat) := ⟨ns.map side, ⟨⟨0, 0, 0⟩, ⟨0, 0, 0⟩⟩, c, 0⟩

/-- A box with its polygons. -/
def box (n : List Nat) (x0 x1 y0 y1 z0 z1 : ℚ) (c : List Nat) : Brush ℚ (List Nat) :=
  ⟨(n.zip [[⟨x1, y1, z1⟩, ⟨x1, y1, z0⟩, ⟨x1, y0, z0⟩, ⟨x1, y0, z1⟩], [⟨x0, y0, z1⟩, ⟨x0, y0, z0⟩, ⟨x0, y1, z0⟩, ⟨x0, y1, z1⟩],
    [⟨x0, y1, z1⟩, ⟨x0, y1, z0⟩, ⟨x1, y1, z0⟩, ⟨x1, y1, z1⟩], [⟨x1, y0, z1⟩, ⟨x1, y0, z0⟩, ⟨x0, y0, z0⟩, ⟨x0, y0, z1⟩],
    [⟨x0, y0, z1⟩, ⟨x0, y1, z1⟩, ⟨x1, y1, z1⟩, ⟨x1, y0, z1⟩], [⟨x0, y1, z0⟩, ⟨x0, y0, z0⟩, ⟨x1, y0, z0⟩, ⟨x1, y1, z0⟩]]).map
    fun e => { side e.1 with w := e.2 }, ⟨⟨x0, y0, z0⟩, ⟨x1, y1, z1⟩⟩, c, 0⟩

def rawA := raw [2, 1, 6, 5, 10, 9] [1]
def rawB := raw [14, 13, 6, 5, 10, 9] [2]
def boxA := box [2, 1, 6, 5, 10, 9] 0 64 0 64 0 64 [1]
def boxB := box [14, 13, 6, 5, 10, 9] 32 96 0 64 0 64 [2]
def boxV := box [18, 17, 22, 21, 26, 25] (-24) 120 (-24) 88 (-24) 88 []

theorem madeA : createWindings env (1 / 10000) rawA = .ok (true, boxA) := by decide +kernel
theorem madeB : createWindings env (1 / 10000) rawB = .ok (true, boxB) := by decide +kernel

instance decNear : ∀ (l : List (Side ℚ)) (w : List (Vec ℚ)), Decidable (NoneNear env l w)
  | [], _ => isTrue trivial
  | s :: l, w =>
    have : DecidablePred fun w' => NoneNear env l w' := fun w' => decNear l w'
    by unfold NoneNear; infer_instance

instance decNearBy (eps : ℚ) (i : Nat) : ∀ (l : List (Side ℚ × Nat)) (w : List (Vec ℚ)), Decidable (NoneNearBy env eps i l w)
  | [], _ => isTrue trivial
  | (s, j) :: l, w =>
    have : DecidablePred fun w' => NoneNearBy env eps i l w' := fun w' => decNearBy eps i l w'
    by unfold NoneNearBy; infer_instance

instance (n : Nat) (b : Brush ℚ (List Nat)) : Decidable (CleanCut env n b) := by unfold CleanCut; infer_instance

theorem nearA : ∀ x ∈ rawA.sides.zipIdx, NoneNearBy env (1 / 10000) x.2 rawA.sides.zipIdx (env.base (env.planes x.1.planenum)) := by
  decide +kernel
theorem nearB : ∀ x ∈ rawB.sides.zipIdx, NoneNearBy env (1 / 10000) x.2 rawB.sides.zipIdx (env.base (env.planes x.1.planenum)) := by
  decide +kernel

/-- The hypotheses of the theorems about the leafs, for a point in both boxes, one in one box and one in none. -/
def good : Bool :=
  match brushBsp env (fun _ => boxV) 24 9 [boxA, boxB] with
  | some (.ok t) =>
    [(⟨48, 32, 32⟩, [1, 2]), (⟨16, 32, 32⟩, [1]), (⟨16, 32, 80⟩, [])].all fun (p, c) =>
      ((leafAt env.planes p t).1.all fun n => 1 / 10 < |(env.planes n).distTo p|) &&
      ((cuts env (fun _ => boxV) 24 p 9 [boxA, boxB]).all fun x => CleanCut env x.1 x.2) &&
      ((leafAt env.planes p t).2.2.all fun b => b.sides.all fun s =>
        decide (s.w ≠ [] → s.onnode = false → (env.planes s.planenum).distTo p ≤ 0)) &&
      decide ((leafAt env.planes p t).2.1 = c)
  | _ => false

end Verif.BrushBsp.Ex
