import Mathlib.Algebra.Order.Field.Basic

/-!
Model of bounding boxes (include/common/aabb.hh) of `N` dimensions over an ordered field `K` (exact arithmetic instead of
floating point).
-/

namespace Verif.Geom

/-- `qvec<V, N>`. -/
abbrev Pt (K : Type) (N : Nat) := Fin N → K

/-- `aabb<V, N>` (include/common/aabb.hh:65): the two corners. -/
structure Box (K : Type) (N : Nat) where
  mins : Pt K N
  maxs : Pt K N

namespace Box

variable {K : Type} [Field K] [LinearOrder K] {N : Nat}

/-- `for (size_t i = 0; i < N; i++)` with a return when the test holds. -/
def anyAxis (t : Fin N → Bool) : Bool := (List.finRange N).any t

/-- The constructor from two corners (include/common/aabb.hh:67-86). -/
def mk' (mins maxs : Pt K N) : Box K N := ⟨mins, fun i => if maxs i < mins i then mins i else maxs i⟩

/-- The default constructor (include/common/aabb.hh:77-80); `lowest` and `max` are those of `numeric_limits<V>`. -/
def empty (lowest max : K) : Box K N := ⟨fun _ => max, fun _ => lowest⟩

/-- The constructor from a point (include/common/aabb.hh:88-91). -/
def ofPoint (p : Pt K N) : Box K N := mk' p p

/-- `translate` (include/common/aabb.hh:114). -/
def translate (b : Box K N) (v : Pt K N) : Box K N := mk' (fun i => b.mins i + v i) (fun i => b.maxs i + v i)

/-- `disjoint` (include/common/aabb.hh:116-125). -/
def disjoint (b o : Box K N) (eps : K) : Bool :=
  anyAxis fun i => decide (b.maxs i < o.mins i - eps) || decide (b.mins i > o.maxs i + eps)

/-- `disjoint_or_touching` (include/common/aabb.hh:127-136). -/
def disjointOrTouching (b o : Box K N) (eps : K) : Bool :=
  anyAxis fun i => decide (b.maxs i ≤ o.mins i - eps) || decide (b.mins i ≥ o.maxs i + eps)

/-- `contains` (include/common/aabb.hh:138-146). -/
def contains (b o : Box K N) : Bool :=
  !anyAxis fun i => decide (o.mins i < b.mins i) || decide (o.maxs i > b.maxs i)

/-- `containsPoint` (include/common/aabb.hh:148-156). -/
def containsPoint (b : Box K N) (p : Pt K N) : Bool :=
  !anyAxis fun i => !(decide (p i ≥ b.mins i) && decide (p i ≤ b.maxs i))

/-- `expand` (include/common/aabb.hh:158-166). -/
def expand (b : Box K N) (p : Pt K N) : Box K N := mk' (fun i => min (b.mins i) (p i)) (fun i => max (b.maxs i) (p i))

/-- `unionWith` (include/common/aabb.hh:172). -/
def unionWith (b o : Box K N) : Box K N := (b.expand o.mins).expand o.maxs

/-- `expand_in_place` (include/common/aabb.hh:176-184). -/
def expandInPlace (b : Box K N) (p : Pt K N) : Box K N := ⟨fun i => min (b.mins i) (p i), fun i => max (b.maxs i) (p i)⟩

/-- `unionWith_in_place` (include/common/aabb.hh:190-198). -/
def unionInPlace (b o : Box K N) : Box K N :=
  ⟨fun i => min (min (b.mins i) (o.mins i)) (o.maxs i), fun i => max (max (b.maxs i) (o.mins i)) (o.maxs i)⟩

/-- `intersectWith` (include/common/aabb.hh:200-212); `none`: not valid. -/
def intersectWith (b o : Box K N) : Option (Box K N) :=
  let c0 : Pt K N := fun i => max (b.mins i) (o.mins i)
  let c1 : Pt K N := fun i => min (b.maxs i) (o.maxs i)
  if anyAxis fun i => decide (c0 i > c1 i) then none else some (mk' c0 c1)

/-- `grow` (include/common/aabb.hh:226). -/
def grow (b : Box K N) (s : Pt K N) : Box K N := mk' (fun i => b.mins i - s i) (fun i => b.maxs i + s i)

/-- The constructor from a range of points (include/common/aabb.hh:99-106), as in `winding_base_t::bounds`
(include/common/polylib.hh:707-715). -/
def ofPoints (lowest max : K) (ps : List (Pt K N)) : Box K N := ps.foldl expandInPlace (empty lowest max)

end Box

namespace Spec

variable {K : Type} [LinearOrder K] {N : Nat}

/-- The points of a box. -/
def Inside (b : Box K N) (p : Pt K N) : Prop := ∀ i, b.mins i ≤ p i ∧ p i ≤ b.maxs i

/-- A box with points. -/
def Proper (b : Box K N) : Prop := ∀ i, b.mins i ≤ b.maxs i

end Spec

end Verif.Geom
