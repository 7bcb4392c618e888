import Verif.Extents.Model

/-!
What the lightmap coordinates of a face are meant to be, without the matrices of the code.
-/

namespace Verif.Extents.Spec

open Verif.Geom

variable {K : Type} [Field K] [LinearOrder K]

/-- The points of a convex face: its corners and everything between two of its points. -/
inductive InFace (pts : List (Vec K)) : Vec K → Prop where
  | corner {p : Vec K} : p ∈ pts → InFace pts p
  | between {p q : Vec K} (t : K) : 0 ≤ t → t ≤ 1 → InFace pts p → InFace pts q →
      InFace pts ⟨(1 - t) * p.x + t * q.x, (1 - t) * p.y + t * q.y, (1 - t) * p.z + t * q.z⟩

/-- `lo` and `hi` are the least and the largest value of `g` at the corners of a face. -/
def Range (pts : List (Vec K)) (g : Vec K → K) (lo hi : K) : Prop :=
  (∃ p ∈ pts, g p = lo) ∧ (∃ p ∈ pts, g p = hi) ∧ ∀ p ∈ pts, lo ≤ g p ∧ g p ≤ hi

/-- What an engine computes for one axis of a face: with luxels of the size `shift`, the lightmap starts at a whole luxel at
or below the least coordinate and ends at one at or above the largest. -/
def EngineAxis [FloorRing K] (pts : List (Vec K)) (g : Vec K → K) (shift : K) (first extent : Int) : Prop :=
  ∃ lo hi, Range pts g lo hi ∧ first = ⌊lo / shift⌋ ∧ extent = ⌈hi / shift⌉ - ⌊lo / shift⌋

/-- The point is on the plane. -/
def On (pl : Plane K) (p : Vec K) : Prop := p.x * pl.normal.x + p.y * pl.normal.y + p.z * pl.normal.z = pl.dist

/-- The square of the distance of two points. -/
def dist2 (p q : Vec K) : K := (p.x - q.x) * (p.x - q.x) + (p.y - q.y) * (p.y - q.y) + (p.z - q.z) * (p.z - q.z)

/-- The square of the distance of two lightmap coordinates. -/
def lmDist2 (p q : K × K) : K := (p.1 - q.1) * (p.1 - q.1) + (p.2 - q.2) * (p.2 - q.2)

/-- The square of the distance of two points, seen along an axis. -/
def seenAlong (a : Nat) (p q : Vec K) : K :=
  match a with
  | 0 => (p.y - q.y) * (p.y - q.y) + (p.z - q.z) * (p.z - q.z)
  | 1 => (p.x - q.x) * (p.x - q.x) + (p.z - q.z) * (p.z - q.z)
  | _ => (p.x - q.x) * (p.x - q.x) + (p.y - q.y) * (p.y - q.y)

/-- An axis along which the vector is largest. -/
def Dominant (v : Vec K) (a : Nat) : Prop :=
  (a = 0 ∧ |v.y| ≤ |v.x| ∧ |v.z| ≤ |v.x|) ∨ (a = 1 ∧ |v.x| ≤ |v.y| ∧ |v.z| ≤ |v.y|) ∨
    (a = 2 ∧ |v.x| ≤ |v.z| ∧ |v.y| ≤ |v.z|)

/-- The determinant of three vectors. -/
def triple (a b c : Vec K) : K :=
  a.x * (b.y * c.z - b.z * c.y) + a.y * (b.z * c.x - b.x * c.z) + a.z * (b.x * c.y - b.y * c.x)

/-- The extents were made by one of the constructors that measure a face. -/
def Measured [FloorRing K] (f : Face K) (e : Ext K) : Prop :=
  (∃ shift, 0 < shift ∧ vanilla f shift = .ok e) ∨ ∃ units, 0 < units ∧ decoupled f units = .ok e

end Verif.Extents.Spec
