import Verif.Tree.FindFace

/-!
What C211 says, apart from the model.
-/

namespace Verif.Tree.Spec

open Geom

variable {K : Type} [Field K] [LinearOrder K]

/-- The nodes below a node to which a point leads, if at each node on the way the distance of the point from the plane meets the
condition of the side taken. -/
inductive Reach (dplanes : List (DPlane K)) (dnodes : List DNode) (p : Vec K) (okFront okBack : K → Prop) : Int → Nat → Prop
  | here (n : Int) : 0 ≤ n → Reach dplanes dnodes p okFront okBack n n.toNat
  | front (n : Int) (nd : DNode) (pl : DPlane K) (m : Nat) : 0 ≤ n → dnodes[n.toNat]? = some nd →
      dplanes[nd.planenum]? = some pl → okFront (pl.plane.distTo p) → Reach dplanes dnodes p okFront okBack nd.c0 m →
      Reach dplanes dnodes p okFront okBack n m
  | back (n : Int) (nd : DNode) (pl : DPlane K) (m : Nat) : 0 ≤ n → dnodes[n.toNat]? = some nd →
      dplanes[nd.planenum]? = some pl → okBack (pl.plane.distTo p) → Reach dplanes dnodes p okFront okBack nd.c1 m →
      Reach dplanes dnodes p okFront okBack n m

/-- The edges of a polygon. -/
def Edge (w : List (Vec K)) (a b : Vec K) : Prop :=
  ∃ i, w[i]? = some a ∧ w[if i + 1 = w.length then 0 else i + 1]? = some b

/-- A point is on the inner side of every edge of a face, the corners going around clockwise as seen from its front. -/
def Within (f : DFace K) (p : Vec K) : Prop := ∀ a b, Edge f.corners a b →
  0 ≤ (p.x - a.x) * ((b.y - a.y) * f.plane.normal.z - (b.z - a.z) * f.plane.normal.y) +
    (p.y - a.y) * ((b.z - a.z) * f.plane.normal.x - (b.x - a.x) * f.plane.normal.z) +
    (p.z - a.z) * ((b.x - a.x) * f.plane.normal.y - (b.y - a.y) * f.plane.normal.x)

/-- A face is among the faces of a node. -/
def Owns (nd : DNode) (k : Nat) : Prop := nd.firstface ≤ k ∧ (k : Int) < nd.firstface + nd.numfaces

/-- Every node has faces of the file. -/
def FacesThere (dnodes : List DNode) (dfaces : List (DFace K)) : Prop :=
  ∀ nd ∈ dnodes, 0 < nd.numfaces → 0 ≤ nd.firstface ∧ nd.firstface + nd.numfaces ≤ dfaces.length

/-- Points of a polygon: weighted means of its corners. -/
inductive Mean : List (Vec K) → Vec K → Prop
  | corner (w : List (Vec K)) (v : Vec K) : v ∈ w → Mean w v
  | mix (w : List (Vec K)) (p q : Vec K) (t : K) : 0 ≤ t → t ≤ 1 → Mean w p → Mean w q →
      Mean w ⟨(1 - t) * p.x + t * q.x, (1 - t) * p.y + t * q.y, (1 - t) * p.z + t * q.z⟩

end Verif.Tree.Spec
