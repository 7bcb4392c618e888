import Verif.Geom.Spec
import Verif.Tree.Planes
import Verif.BspUtil.Scale

/-! What `bsputil --scale` is to do, said without its planes and numbers. -/

namespace Verif.BspUtil.Scale.Spec

open Geom Tree

variable {K : Type} [Field K] [LinearOrder K]

/-- Where a point goes. -/
def image (s p : Vec K) : Vec K := ⟨p.x * s.x, p.y * s.y, p.z * s.z⟩

/-- The square of the distance of two points. -/
def sqDist (a b : Vec K) : K := (a.x - b.x) * (a.x - b.x) + (a.y - b.y) * (a.y - b.y) + (a.z - b.z) * (a.z - b.z)

/-- No factor is zero. -/
def Factors (s : Vec K) : Prop := s.x ≠ 0 ∧ s.y ≠ 0 ∧ s.z ≠ 0

/-- Exactly two factors are negative: a half turn about an axis. -/
def HalfTurn (s : Vec K) : Prop :=
  (s.x < 0 ∧ s.y < 0 ∧ 0 ≤ s.z) ∨ (s.x < 0 ∧ 0 ≤ s.y ∧ s.z < 0) ∨ (0 ≤ s.x ∧ s.y < 0 ∧ s.z < 0)

/-- A mirror image: one or three factors are negative. -/
def Mirror (s : Vec K) : Prop := s.x * s.y * s.z < 0

/-- `len` is the length of a vector. -/
def LenOk (len : Vec K → K) : Prop := ∀ v, 0 ≤ len v ∧ len v * len v = dot v v

/-- A plane of a file: its normal has length one, and it is along the axis that its type names. -/
structure PlaneOk (p : DPlane K) : Prop where
  unit : dot p.plane.normal p.plane.normal = 1
  x : p.type = .x → p.plane.normal = ⟨1, 0, 0⟩ ∨ p.plane.normal = ⟨-1, 0, 0⟩
  y : p.type = .y → p.plane.normal = ⟨0, 1, 0⟩ ∨ p.plane.normal = ⟨0, -1, 0⟩
  z : p.type = .z → p.plane.normal = ⟨0, 0, 1⟩ ∨ p.plane.normal = ⟨0, 0, -1⟩

/-- A plane of which an axial type means the positive direction; nodes have only these. -/
def Faces (p : DPlane K) : Prop :=
  (p.type = .x → p.plane.normal = ⟨1, 0, 0⟩) ∧ (p.type = .y → p.plane.normal = ⟨0, 1, 0⟩) ∧ (p.type = .z → p.plane.normal = ⟨0, 0, 1⟩)

/-- The tolerance at a point, when planes that are nearly the same become one. -/
def tol (epsN epsD : K) (q : Vec K) : K := epsN * (|q.x| + |q.y| + |q.z|) + epsD

/-- The image of `p` is further than the tolerance from the image of every point of the plane. -/
def Clear (epsN epsD : K) (s p : Vec K) (pl : Plane K) : Prop :=
  ∀ x, pl.distTo x = 0 → tol epsN epsD (image s p) * tol epsN epsD (image s p) < sqDist (image s x) (image s p)

/-- A point is in a box. -/
def InBox (b : Box K) (p : Vec K) : Prop :=
  b.mins.x ≤ p.x ∧ p.x ≤ b.maxs.x ∧ b.mins.y ≤ p.y ∧ p.y ≤ b.maxs.y ∧ b.mins.z ≤ p.z ∧ p.z ≤ b.maxs.z

/-- A box of whole numbers. -/
def wholeBox (lo hi : Vec ℤ) : Box K := ⟨⟨lo.x, lo.y, lo.z⟩, ⟨hi.x, hi.y, hi.z⟩⟩

/-- The corners of a face, in order; `none` for an edge or a vertex that is missing. -/
def corners (surfedges : List Int) (edges : List (Nat × Nat)) (vertexes : List (Vec K)) (f : SFace) : List (Option (Vec K)) :=
  (List.range f.num).map fun k =>
    match surfedges[f.first + k]? with
    | none => none
    | some e =>
      match edges[e.natAbs]? with
      | none => none
      | some v => if e < 0 then vertexes[v.2]? else vertexes[v.1]?

/-- The end of an edge of a face. -/
def ends (surfedges : List Int) (edges : List (Nat × Nat)) (vertexes : List (Vec K)) (f : SFace) : List (Option (Vec K)) :=
  (List.range f.num).map fun k =>
    match surfedges[f.first + k]? with
    | none => none
    | some e =>
      match edges[e.natAbs]? with
      | none => none
      | some v => if e < 0 then vertexes[v.1]? else vertexes[v.2]?

/-- Each edge ends where the next one begins. -/
def Joined (surfedges : List Int) (edges : List (Nat × Nat)) (vertexes : List (Vec K)) (f : SFace) : Prop :=
  ends surfedges edges vertexes f = (corners surfedges edges vertexes f).rotate 1

/-- The faces have edges of their own. -/
def Disjoint (faces : List SFace) : Prop :=
  faces.Pairwise fun f g => f.first + f.num ≤ g.first ∨ g.first + g.num ≤ f.first

/-- A texture coordinate of a point. -/
def coord (r : Vec K × K) (p : Vec K) : K := dot p r.1 + r.2

/-- The place of a point of the light grid. -/
def gridPoint (g : Grid K) (i : Vec Int) : Vec K :=
  ⟨g.mins.x + g.dist.x * (i.x : K), g.mins.y + g.dist.y * (i.y : K), g.mins.z + g.dist.z * (i.z : K)⟩

end Verif.BspUtil.Scale.Spec
