import Verif.BrushBsp.Windings
import Verif.Common.Outcome
import Mathlib.Order.WithBot

/-!
Model of how qbsp finds out how large a map is: `GetIntersection`, `GetBrushExtents` and `CalculateWorldExtent`
(qbsp/map.cc:3703-3798).

Simplifications: arithmetic is exact; `WithBot K` are numbers with negative infinity as least element. `ceil` is a
parameter. Operations on `std::atomic` are one step each, and sequentially consistent, as is the default in C++; the two
loops of `tbb::parallel_for_each` may run all their bodies at once, in any order of steps. Setting the option and the
message are left out.
-/

namespace Verif.World

open Geom

variable {K : Type} [Field K] [LinearOrder K]

/-- `GetIntersection` (qbsp/map.cc:3703-3714). -/
def intersection (p1 p2 p3 : Plane K) : Option (Vec K) :=
  let c23 := BrushBsp.cross p2.normal p3.normal
  let c31 := BrushBsp.cross p3.normal p1.normal
  let c12 := BrushBsp.cross p1.normal p2.normal
  let denom := dot p1.normal c23
  if denom = 0 then none
  else some ⟨(c23.x * p1.dist - c31.x * -p2.dist - c12.x * -p3.dist) / denom,
    (c23.y * p1.dist - c31.y * -p2.dist - c12.y * -p3.dist) / denom,
    (c23.z * p1.dist - c31.z * -p2.dist - c12.z * -p3.dist) / denom⟩

/-- The loop that looks for a face with the point in front (qbsp/map.cc:3747-3752); `eps` is `NORMAL_EPSILON`. -/
def legal (eps : K) (fs : List (Plane K)) (v : Vec K) : Bool := fs.all fun f => !decide (f.distTo v > eps)

/-- The values of the counter of a loop from `a` up to `b`. -/
def upTo (a b : Nat) : List Nat := (List.range (b - a)).map (a + ·)

/-- The values of the three counters (qbsp/map.cc:3726-3728). -/
def triples (n : Nat) : List (Nat × Nat × Nat) :=
  (upTo 0 (n - 2)).flatMap fun i => (upTo i (n - 1)).flatMap fun j => (upTo j n).map fun k => (i, j, k)

/-- The largest coordinate (qbsp/map.cc:3756-3758). -/
def grow (e : WithBot K) (v : Vec K) : WithBot K :=
  max (max (max e ((|v.x| : K) : WithBot K)) ((|v.y| : K) : WithBot K)) ((|v.z| : K) : WithBot K)

/-- The body of the inner loop (qbsp/map.cc:3729-3759). -/
def visit (eps : K) (fs : List (Plane K)) (e : WithBot K) (c : Nat × Nat × Nat) : WithBot K :=
  if c.1 = c.2.1 ∨ c.2.1 = c.2.2 ∨ c.2.2 = c.1 then e
  else
    match fs[c.1]?, fs[c.2.1]?, fs[c.2.2]? with
    | some a, some b, some d =>
      match intersection a b d with
      | none => e
      | some v => if legal eps fs v then grow e v else e
    | _, _, _ => e

/-- `GetBrushExtents` (qbsp/map.cc:3721-3769). With fewer than two faces the limit of a loop wraps around, so that the
counter of type `int32_t` runs beyond its range. `scale` is the option; a negative one would turn negative infinity round,
which is not modelled. -/
def brushExtents (eps scale : K) (fs : List (Plane K)) : Outcome (WithBot K) :=
  if fs.length < 2 then .ub
  else
    let e := (triples fs.length).foldl (visit eps fs) ⊥
    .ok (if scale ≠ 1 then e.map (· * scale) else e)

/-- Where the body of the loop for a brush is (qbsp/map.cc:3780-3783). -/
inductive Pc (K : Type) where
  | start
  /-- `brushExtents` is set. -/
  | got (be : WithBot K)
  /-- `currentExtents` is set too. -/
  | trying (cur be : WithBot K)
  | done
  deriving DecidableEq

/-- `extents`, and all bodies. -/
structure St (K : Type) where
  shared : WithBot K
  pcs : List (Pc K)

/-- Before the loops (qbsp/map.cc:3776). -/
def init (n : Nat) : St K := ⟨⊥, List.replicate n .start⟩

/-- A step of the body with number `i` (qbsp/map.cc:3780-3783); `es` are the results of `GetBrushExtents`. -/
inductive Step (es : List (WithBot K)) : St K → St K → Prop
  | load (s : St K) (i : Nat) (e : WithBot K) (hp : s.pcs[i]? = some .start) (he : es[i]? = some e) :
      Step es s { s with pcs := s.pcs.set i (.got (max s.shared e)) }
  | read (s : St K) (i : Nat) (be : WithBot K) (hp : s.pcs[i]? = some (.got be)) :
      Step es s { s with pcs := s.pcs.set i (.trying s.shared be) }
  | leave (s : St K) (i : Nat) (cur be : WithBot K) (hp : s.pcs[i]? = some (.trying cur be)) (h : ¬ cur < be) :
      Step es s { s with pcs := s.pcs.set i .done }
  | swap (s : St K) (i : Nat) (cur be : WithBot K) (hp : s.pcs[i]? = some (.trying cur be)) (h : cur < be)
      (hs : s.shared = cur) : Step es s ⟨be, s.pcs.set i .done⟩
  | fail (s : St K) (i : Nat) (cur be : WithBot K) (hp : s.pcs[i]? = some (.trying cur be)) (h : cur < be)
      (hs : s.shared ≠ cur) : Step es s { s with pcs := s.pcs.set i (.trying s.shared be) }

/-- `compare_exchange_weak` may fail although the value is the expected one. -/
inductive Spurious : St K → St K → Prop
  | fail (s : St K) (i : Nat) (cur be : WithBot K) (hp : s.pcs[i]? = some (.trying cur be)) (h : cur < be)
      (hs : s.shared = cur) : Spurious s { s with pcs := s.pcs.set i (.trying s.shared be) }

/-- A run. -/
inductive Run (es : List (WithBot K)) : St K → St K → Prop
  | refl (s : St K) : Run es s s
  | step {s t u : St K} (h : Run es s t) (h1 : Step es t u ∨ Spurious t u) : Run es s u

/-- The loop over the hulls (qbsp/map.cc:3787-3793). -/
def hullExtents (hulls : List (BrushBsp.Bounds K)) : K :=
  hulls.foldl (fun h b => max (max (max h |b.maxs.x - b.mins.x|) |b.maxs.y - b.mins.y|) |b.maxs.z - b.mins.z|) 0

/-- The new value of the option (qbsp/map.cc:3795). -/
def worldExtent (ceil : K → K) (hulls : List (BrushBsp.Bounds K)) (extents : WithBot K) : WithBot K :=
  extents.map fun e => ceil ((e + hullExtents hulls) * 2) + 24

/-- All brushes: `GetBrushExtents` is called once for each (qbsp/map.cc:3778-3785). -/
def allExtents (eps scale : K) : List (List (Plane K)) → Outcome (List (WithBot K))
  | [] => .ok []
  | b :: l => do
    let e ← brushExtents eps scale b
    let r ← allExtents eps scale l
    .ok (e :: r)

end Verif.World
