import Verif.Faces.Edge

/-! What the properties of the vertices on the edges of faces mean. -/

namespace Verif.Faces.Spec

open Verif.Geom

variable {K : Type} [Field K] [LinearOrder K]

/-- How far along the line a point lies. -/
def Param (l : Line K) (p : Vec K) : K :=
  (p.x - l.start.x) * l.dir.x + (p.y - l.start.y) * l.dir.y + (p.z - l.start.z) * l.dir.z

/-- The point is within the tolerance of the line: the square of its distance from the nearest point of the line. -/
def Near (l : Line K) (p : Vec K) : Prop :=
  let t := Param l p
  let dx := p.x - (l.start.x + l.dir.x * t)
  let dy := p.y - (l.start.y + l.dir.y * t)
  let dz := p.z - (l.start.z + l.dir.z * t)
  dx * dx + dy * dy + dz * dz ≤ l.eps * l.eps

/-- The point lies on the line, strictly between the places `a` and `b`. -/
def InsideEdge (l : Line K) (a b : K) (p : Vec K) : Prop :=
  Near l p ∧ l.rnd a < Param l p ∧ Param l p < l.rnd b

/-- The conversion to `float`: monotone, and it keeps the numbers it yields. -/
def Rounding (rnd : K → K) : Prop := (∀ a b, a ≤ b → rnd a ≤ rnd b) ∧ ∀ a, rnd (rnd a) = rnd a

/-- A vertex of a face somewhere in the tree. -/
def VertexOf {C : Type} (inter : TFace C → Bool) (v : Nat) : FTree K C → Prop
  | .leaf => False
  | .node _ faces front back => (∃ g ∈ faces, inter g = true ∧ v ∈ g.verts) ∨ VertexOf inter v front ∨ VertexOf inter v back

/-- Every face below a node lies within its bounds. -/
def Bounded {C : Type} (pos : Nat → Vec K) : FTree K C → Prop
  | .leaf => True
  | .node bounds faces front back =>
    (∀ v, VertexOf (fun _ => true) v (.node bounds faces front back) → Geom.Spec.Inside bounds (toPt (pos v))) ∧
      Bounded pos front ∧ Bounded pos back

/-- What becomes of the edge from `v1` to `v2` of the face `f`: nothing when both are the same vertex; otherwise `v1`
and vertices on the edge, such that no vertex of an interacting face is left inside a part of the edge. -/
def EdgeFixed {C : Type} (w : World K C) (f : TFace C) (e : Nat × Nat) (seg : List Nat) : Prop :=
  let n := w.normalize ⟨(w.pos e.2).x - (w.pos e.1).x, (w.pos e.2).y - (w.pos e.1).y, (w.pos e.2).z - (w.pos e.1).z⟩
  let l : Line K := ⟨w.pos e.1, n.1, w.eps, w.rnd⟩
  if e.1 = e.2 then seg = []
  else
    ∃ mids, seg = e.1 :: mids ∧
      (∀ j ∈ mids, VertexOf (w.inter f) j w.head ∧ InsideEdge l 0 n.2 (w.pos j)) ∧
      ∀ j, VertexOf (w.inter f) j w.head → j ∉ seg → j ≠ e.2 →
        List.IsChain (fun a b => ¬ InsideEdge l a b (w.pos j)) (0 :: mids.map (fun j => Param l (w.pos j)) ++ [n.2])

/-- `qv::normalize` yields a unit vector and the length, and rounding the length changes it by little. -/
def Normal {C : Type} (w : World K C) (e : Nat × Nat) : Prop :=
  let v : Vec K := ⟨(w.pos e.2).x - (w.pos e.1).x, (w.pos e.2).y - (w.pos e.1).y, (w.pos e.2).z - (w.pos e.1).z⟩
  let n := w.normalize v
  (n.1.x * n.2 = v.x ∧ n.1.y * n.2 = v.y ∧ n.1.z * n.2 = v.z) ∧
    n.1.x * n.1.x + n.1.y * n.1.y + n.1.z * n.1.z = 1 ∧ w.rnd n.2 - n.2 ≤ 1 - w.eps

end Verif.Faces.Spec
