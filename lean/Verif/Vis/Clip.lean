import Verif.Geom.Model
import Verif.Vis.Flow

/-!
Model of the winding tests of vis: `ClipStackWinding` (vis/vis.cc), `ClipToSeparators`, `VisTests` and
their use in `RecursiveLeafFlow` and `TargetChecks` (vis/flow.cc), and of the tests of
`BasePortalThread` between two portals.

Simplifications: `double` is replaced by an ordered field `K`.  The fixed pool of three windings of a
frame (`AllocStackWinding`, `FreeStackWinding`) is not modelled: windings are values.  The errors for
windings of more than `MAX_WINDING` points and for more than `MAX_SEPARATORS` planes end the program
and are left out; there is at most one plane for each edge of a winding.
-/

namespace Verif.Vis

open Verif.Geom

variable {K : Type} [Field K] [LinearOrder K]

/-- `viswinding_t` (include/vis/vis.hh:43-122). -/
structure SWind (K : Type) where
  pts : List (Vec K)
  origin : Vec K
  radius : K

/-- The tolerances: `on` for `VIS_ON_EPSILON` where distances are compared, `len` for `VIS_ON_EPSILON`
where the square of a length is compared, `eq` for `VIS_EQUAL_EPSILON` (include/vis/vis.hh:29-30); and the
options `level` and `visdist` (include/vis/vis.hh:258, 265). `unit`: scaling a vector to length 1
(`normal *= 1.0 / sqrt(len_sq)`, vis/flow.cc:62). -/
structure Cfg (K : Type) where
  on : K
  len : K
  eq : K
  level : Nat
  visdist : K
  unit : Vec K → Vec K

/-- The portals (`visportal_t`, include/vis/vis.hh:126-135). -/
structure Geo (Portal K : Type) where
  plane : Portal → Plane K
  wind : Portal → SWind K

/-- `MAX_WINDING_FIXED` (include/vis/vis.hh:32). -/
def maxFixed : Nat := 24

/-- `-plane`. -/
def negPlane (pl : Plane K) : Plane K := ⟨⟨-pl.normal.x, -pl.normal.y, -pl.normal.z⟩, -pl.dist⟩

/-- `ClipStackWinding` (vis/vis.cc:115-215).  The loop pushes the same points as that of
`winding_base_t::clip_front`; if they are too many, the winding is returned as it is. -/
def clipStack (on : K) (w : SWind K) (pl : Plane K) : Option (SWind K) :=
  if pl.distTo w.origin < -w.radius then none
  else if pl.distTo w.origin > w.radius then some w
  else if countSide pl on w.pts .on = w.pts.length then some w
  else if countSide pl on w.pts .front = 0 then none
  else if countSide pl on w.pts .back = 0 then some w
  else
    match w.pts with
    | [] => some w
    | first :: _ =>
      let r := clipFrontLoop pl first w.pts (calcSides pl on w.pts)
      if r.length ≤ maxFixed then some { w with pts := r } else some w

/-- `qv::cross(b - a, p - a)`. -/
def crossAt (a b p : Vec K) : Vec K :=
  ⟨(b.y - a.y) * (p.z - a.z) - (b.z - a.z) * (p.y - a.y),
   (b.z - a.z) * (p.x - a.x) - (b.x - a.x) * (p.z - a.z),
   (b.x - a.x) * (p.y - a.y) - (b.y - a.y) * (p.x - a.x)⟩

/-- The edges of a winding: every point with the next one, the last one with the first one
(vis/flow.cc:33-35). -/
def ring (w : List (Vec K)) : List (Vec K × Vec K) := w.zip (w.tail ++ w.take 1)

/-- One attempt of `ClipToSeparators` (vis/flow.cc:40-88): the plane through the edge `a b` of the source
winding and point `j` of the pass winding, if the source is behind and the pass in front of it. -/
def trySep (cfg : Cfg K) (srcPl : Plane K) (a b : Vec K) (pass : List (Vec K)) (j : Nat) : Option (Plane K) :=
  match pass[j]? with
  | none => none
  | some p =>
    let d := srcPl.distTo p
    if ¬ (d < -cfg.on) ∧ ¬ (d > cfg.on) then none
    else
      let n := crossAt a b p
      if dot n n < cfg.len then none
      else
        let n := cfg.unit n
        let sep : Plane K := ⟨n, dot p n⟩
        let sep := if d < -cfg.on then negPlane sep else sep
        let others := pass.eraseIdx j
        if others.any (fun q => decide (sep.distTo q < -cfg.on)) then none
        else if !others.any (fun q => decide (sep.distTo q > cfg.on)) then none
        else some sep

/-- The first point of the pass winding that gives a plane for an edge (vis/flow.cc:40-108). -/
def findSep (cfg : Cfg K) (srcPl : Plane K) (e : Vec K × Vec K) (pass : List (Vec K)) : Option (Plane K) :=
  (List.range pass.length).findSome? (trySep cfg srcPl e.1 e.2 pass)

/-- `ClipToSeparators` (vis/flow.cc:29-112) for the remaining edges of the source winding; `flip`: the test
is 1 or 3.  Returns the planes the target was clipped by, and what is left of it. -/
def clipToSeps (cfg : Cfg K) (srcPl : Plane K) (pass : List (Vec K)) (flip : Bool) :
    List (Vec K × Vec K) → SWind K → List (Plane K) × Option (SWind K)
  | [], t => ([], some t)
  | e :: es, t =>
    match findSep cfg srcPl e pass with
    | none => clipToSeps cfg srcPl pass flip es t
    | some sep =>
      let sep := if flip then negPlane sep else sep
      match clipStack cfg.on t sep with
      | none => ([sep], none)
      | some t' =>
        let r := clipToSeps cfg srcPl pass flip es t'
        (sep :: r.1, r.2)

/-- Clipping by kept planes (vis/flow.cc:134-138, 151-155). -/
def clipAll (on : K) : List (Plane K) → SWind K → Option (SWind K)
  | [], t => some t
  | pl :: pls, t =>
    match clipStack on t pl with
    | none => none
    | some t' => clipAll on pls t'

/-- `separators` and `numseparators` of `pstack_t`. -/
structure Cache (K : Type) where
  seps0 : List (Plane K)
  seps1 : List (Plane K)

/-- Tests 0 and 1 (vis/flow.cc:131-146, 148-163): the kept planes if there are any, else the separators of
`src` and `pass`, which are then kept. -/
def cachedTest (cfg : Cfg K) (kept : List (Plane K)) (src : List (Vec K)) (srcPl : Plane K)
    (pass : List (Vec K)) (flip : Bool) (t : SWind K) : List (Plane K) × Option (SWind K) :=
  if kept ≠ [] then (kept, clipAll cfg.on kept t)
  else clipToSeps cfg srcPl pass flip (ring src) t

/-- `VisTests` (vis/flow.cc:129-185): `headPl`, `prevPl`, `tgtPl`: the planes of the first, of the last and
of the target portal; `ps`, `pp`: the windings of the previous frame; `source`, `pass`: those of the new
one. -/
def visTests (cfg : Cfg K) (headPl prevPl tgtPl : Plane K) (ps pp : SWind K) (k : Cache K)
    (source pass : SWind K) : Cache K × Option (SWind K × SWind K) :=
  let r0 := if cfg.level > 0 then cachedTest cfg k.seps0 ps.pts headPl pp.pts false pass
    else (k.seps0, some pass)
  match r0.2 with
  | none => (⟨r0.1, k.seps1⟩, none)
  | some pass =>
    let r1 := if cfg.level > 1 then cachedTest cfg k.seps1 pp.pts prevPl ps.pts true pass
      else (k.seps1, some pass)
    match r1.2 with
    | none => (⟨r0.1, r1.1⟩, none)
    | some pass =>
      let r2 := if cfg.level > 2 then (clipToSeps cfg tgtPl pp.pts false (ring pass.pts) source).2
        else some source
      match r2 with
      | none => (⟨r0.1, r1.1⟩, none)
      | some source =>
        let r3 := if cfg.level > 3 then (clipToSeps cfg prevPl pass.pts true (ring pp.pts) source).2
          else some source
        match r3 with
        | none => (⟨r0.1, r1.1⟩, none)
        | some source => (⟨r0.1, r1.1⟩, some (source, pass))

/-- `qv::epsilonEqual` (include/common/qvec.hh:486-500). -/
def epsEqual (eps : K) (a b : Vec K) : Bool :=
  decide (|a.x - b.x| ≤ eps) && decide (|a.y - b.y| ≤ eps) && decide (|a.z - b.z| ≤ eps)

/-- The windings of a frame (`source` and `pass` of `pstack_t`). -/
structure Wins (K : Type) where
  source : SWind K
  pass : Option (SWind K)

/-- The winding tests of `RecursiveLeafFlow` (vis/flow.cc:452-508) and `TargetChecks` (vis/flow.cc:236-280),
which are the same but for the first frame, where target checks do nothing. -/
def lookThrough {Portal : Type} (cfg : Cfg K) (geo : Geo Portal K) (c : List Portal) (d : Wins K)
    (k : Cache K) (q : Portal) : Cache K × Option (Wins K) :=
  match c.head?, c.getLast? with
  | some h, some l =>
    if epsEqual cfg.eq (geo.plane l).normal (negPlane (geo.plane q)).normal then (k, none)
    else
      match clipStack cfg.on (geo.wind q) (geo.plane h) with
      | none => (k, none)
      | some pass =>
        match d.pass with
        | none => (k, some ⟨d.source, some pass⟩)
        | some pp =>
          match clipStack cfg.on pass (geo.plane l) with
          | none => (k, none)
          | some pass =>
            match clipStack cfg.on d.source (negPlane (geo.plane q)) with
            | none => (k, none)
            | some source =>
              match visTests cfg (geo.plane h) (geo.plane l) (geo.plane q) d.source pp k source pass with
              | (k', none) => (k', none)
              | (k', some (source, pass)) => (k', some ⟨source, some pass⟩)
  | _, _ => (k, none)

/-- The winding tests as the flow uses them; the first frame has the portal's winding as its source and no
pass winding (vis/flow.cc:533-534). -/
def geoTests {Portal : Type} (cfg : Cfg K) (geo : Geo Portal K) : Tests Portal (Wins K) (Cache K) where
  start p := ⟨geo.wind p, none⟩
  none := ⟨[], []⟩
  step := lookThrough cfg geo
  target c d k q := ((lookThrough cfg geo c d k q).1, (lookThrough cfg geo c d k q).2.isSome)

/-- `distFromPortal` (include/vis/vis.hh:137-146). -/
def distFrom (w : SWind K) (pl : Plane K) (big : K) : K :=
  w.pts.foldl (fun m v => min m |pl.distTo v|) big

/-- The tests of `BasePortalThread` of portal `q` against portal `p` (vis/flow.cc:592-636); `true`: the bit
of `q` is set.  The counters `cctp` and `ccp` are only compared with 0 and with the number of points. -/
def baseFront {Portal : Type} (cfg : Cfg K) (geo : Geo Portal K) (p q : Portal) : Bool :=
  let w := geo.wind p
  let tw := geo.wind q
  if (geo.plane p).distTo tw.origin < -tw.radius then false
  else
    let some1 := tw.pts.any fun v => decide ((geo.plane p).distTo v > cfg.on)
    let cctp := if some1 then 0 else tw.pts.countP fun v => decide ((geo.plane p).distTo v > -cfg.on)
    if !some1 && cctp != tw.pts.length then false
    else if (geo.plane q).distTo w.origin > w.radius then false
    else
      let some2 := w.pts.any fun v => decide ((geo.plane q).distTo v < -cfg.on)
      let ccp := if some2 then 0 else w.pts.countP fun v => decide ((geo.plane q).distTo v < cfg.on)
      if !some2 && ccp != w.pts.length then false
      else if (cctp != 0 || ccp != 0) &&
          decide (dot (geo.plane p).normal (geo.plane q).normal < -(99 / 100)) then false
      else if cfg.visdist > 0 ∧ (distFrom tw (geo.plane p) (10 ^ 20) > cfg.visdist ∨
          distFrom w (geo.plane q) (10 ^ 20) > cfg.visdist) then false
      else true

end Verif.Vis
