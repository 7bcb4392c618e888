import Mathlib.Algebra.BigOperators.Group.List.Basic
import Mathlib.Algebra.Group.Prod
import Mathlib.Algebra.Order.Field.Basic
import Verif.Common.Outcome

/-!
Model of the light maps of a face while it is being lit, one for each light style: `Lightmap_ForStyle`, `Lightmap_Save`
and the functions that write to them (light/ltface.cc:732-800, 1254-1300, 1650-1860).

Simplifications: a pointer to a light map is its index, which the code asks for again after every growth of the vector.
The rays have been traced: those that were occluded are left out. Colours are elements of any commutative monoid; the
direction of a sample, which is added up in the same way, is left out.
-/

namespace Verif.Illum

/-- `INVALID_LIGHTSTYLE` (include/light/write.hh:59). -/
def invalid : Nat := 65535

/-- `lightmap_t` (include/light/light.hh:77-83). -/
structure Lm (A : Type) where
  style : Nat
  samples : List A
  bounce : A

variable {A : Type} [AddCommMonoid A]

/-- `Lightmap_AllocOrClear` (light/ltface.cc:732-743), for a face with `n` samples. -/
def allocOrClear (n : Nat) (m : Lm A) : Lm A :=
  if m.samples.length = 0 then { m with samples := List.replicate n 0 }
  else if m.style ≠ invalid then { m with samples := List.replicate n 0, bounce := 0 }
  else m

/-- `Lightmap_ForStyle` (light/ltface.cc:763-784): the light maps afterwards, and the index of the one returned. -/
def forStyle (n : Nat) (style : Nat) (d : List (Lm A)) : List (Lm A) × Nat :=
  match d.findIdx? fun m => decide (m.style = style) with
  | some k => (d, k)
  | none =>
    match d.findIdx? fun m => decide (m.style = invalid) with
    | some k => (d.modify k (allocOrClear n), k)
    | none => (d ++ [allocOrClear n ⟨invalid, [], 0⟩], d.length)

/-- `Lightmap_Save` (light/ltface.cc:791-800). -/
def saved (style : Nat) (m : Lm A) : Lm A := if m.style = invalid then { m with style := style } else m

/-- `sample.color += c` and `bounce_color += c` (light/ltface.cc:1293-1296). -/
def addTo (i : Nat) (c : A) (m : Lm A) : Lm A := { m with samples := m.samples.modify i (· + c), bounce := m.bounce + c }

/-- Write to the light map `k`, sample `i`; undefined if there is no such light map or sample. -/
def writeMap (k i : Nat) (f : Lm A → Lm A) (d : List (Lm A)) : Outcome (List (Lm A)) :=
  match d[k]? with
  | none => .ub
  | some m => if i < m.samples.length then .ok (d.set k (f m)) else .ub

/-- A ray that was not occluded: the sample, `dynamic_style` and the colour. -/
structure Hit (A : Type) where
  index : Nat
  dynamic : Nat
  color : A

/-- `desired_style` (light/ltface.cc:1281-1284, 1457-1460). -/
def desired (style : Nat) (r : Hit A) : Nat := if style = 0 then r.dynamic else style

/-- The switch to another light map (light/ltface.cc:1287-1290). -/
def switch (n want cached : Nat) (k : Nat) (d : List (Lm A)) : List (Lm A) × Nat :=
  if want = cached then (d, k) else forStyle n want d

/-- The loop over the rays (light/ltface.cc:1258-1300 and 1442-1480). -/
def addRays (n style : Nat) : Nat → Nat → List (Lm A) → List (Hit A) → Outcome (List (Lm A))
  | _, _, d, [] => .ok d
  | cached, k, d, r :: rs =>
    let want := desired style r
    let s := switch n want cached k d
    do
      let d' ← writeMap s.2 r.index (fun m => saved want (addTo r.index r.color m)) s.1
      addRays n style want s.2 d' rs

/-- The end of `LightFace_Entity` and of `LightFace_Sky` (light/ltface.cc:1254-1300, 1433-1480). -/
def lightFace (n style : Nat) (d : List (Lm A)) (rs : List (Hit A)) : Outcome (List (Lm A)) :=
  let s := forStyle n style d
  addRays n style style s.2 s.1 rs

/-- `sample.color += c` (light/ltface.cc:1674 and 1760). -/
def tintTo (i : Nat) (c : A) (m : Lm A) : Lm A := { m with samples := m.samples.modify i (· + c) }

/-- The loops that add without dynamic shadows, `w` being the write to a light map: `LightFace_SurfaceLight`
(light/ltface.cc:2079-2103), and `LightFace_Min` and `LightFace_LocalMin` with `_addmin` (1662-1676, 1745-1761). -/
def addAll (w : Nat → A → Lm A → Lm A) (k : Nat) : List (Lm A) → List (Nat × A) → Outcome (List (Lm A))
  | d, [] => .ok d
  | d, (i, c) :: rs => do
    let d' ← writeMap k i (w i c) d
    addAll w k d' rs

/-- `if (hit) Lightmap_Save` (light/ltface.cc:1682-1684, 1768-1770, 2105-2107). -/
def saveAt (k style : Nat) (hit : Bool) (d : List (Lm A)) : List (Lm A) :=
  if hit then d.modify k (saved style) else d

/-- The light of one point of a surface light (light/ltface.cc:2075-2107). -/
def surfaceLight (n style : Nat) (d : List (Lm A)) (rs : List (Nat × A)) : Outcome (List (Lm A)) := do
  let s := forStyle n style d
  let d' ← addAll addTo s.2 s.1 rs
  pure (saveAt s.2 style (!rs.isEmpty) d')

/-- `LightFace_Min` and `LightFace_LocalMin` with `_addmin` (light/ltface.cc:1660-1684, 1717-1770). -/
def addMinLight (n style : Nat) (d : List (Lm A)) (rs : List (Nat × A)) : Outcome (List (Lm A)) := do
  let s := forStyle n style d
  let d' ← addAll tintTo s.2 s.1 rs
  pure (saveAt s.2 style (!rs.isEmpty) d')

/-! ### Minimum light -/

variable {K : Type} [Field K] [LinearOrder K]

/-- One component of `Light_ClampMin` (light/ltface.cc:998-1013). -/
def raise (c x : K) : K := if c > x then c else x

/-- The new colour of a sample. -/
def clampMin (c x : K × K × K) : K × K × K := (raise c.1 x.1, raise c.2.1 x.2.1, raise c.2.2 x.2.2)

/-- What `Light_ClampMin` returns. -/
def clampHit (c x : K × K × K) : Bool := decide (c.1 > x.1) || decide (c.2.1 > x.2.1) || decide (c.2.2 > x.2.2)

/-- `Light_ClampMin` at one sample (light/ltface.cc:1680 and 1762). -/
def clampTo (i : Nat) (c : K × K × K) (m : Lm (K × K × K)) : Lm (K × K × K) :=
  { m with samples := m.samples.modify i (clampMin c) }

/-- What the call returned, at sample `i` of light map `k`. -/
def hitAt (k i : Nat) (c : K × K × K) (d : List (Lm (K × K × K))) : Bool :=
  match d[k]? with
  | none => false
  | some m => match m.samples[i]? with
    | none => false
    | some x => clampHit c x

/-- The loop of `LightFace_Min` (light/ltface.cc:1662-1681) and the one of `LightFace_LocalMin` (1745-1763). -/
def clampAll (k : Nat) : List (Lm (K × K × K)) → List (Nat × (K × K × K)) → Bool →
    Outcome (List (Lm (K × K × K)) × Bool)
  | d, [], hit => .ok (d, hit)
  | d, (i, c) :: rs, hit => do
    let d' ← writeMap k i (clampTo i c) d
    clampAll k d' rs (hitAt k i c d || hit)

/-- `LightFace_Min` and `LightFace_LocalMin` without `_addmin`: the samples to raise, with the colour for each, which is
the minimum light after dirt and mottling. -/
def minLight (n style : Nat) (d : List (Lm (K × K × K))) (rs : List (Nat × (K × K × K))) :
    Outcome (List (Lm (K × K × K))) := do
  let s := forStyle n style d
  let r ← clampAll s.2 s.1 rs false
  pure (saveAt s.2 style r.2 r.1)

end Verif.Illum
