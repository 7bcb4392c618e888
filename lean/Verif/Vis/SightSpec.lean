import Verif.Vis.Clip
import Verif.BrushBsp.HullSpec

/-! Specification: straight lines through the portals of a map. -/

namespace Verif.Vis

open Verif.Geom Verif.Geom.Spec

variable {Leaf Portal K : Type} [Field K] [LinearOrder K]

/-- The point of a line at the time `t`. -/
def lineAt (a u : Vec K) (t : K) : Vec K := ⟨a.x + t * u.x, a.y + t * u.y, a.z + t * u.z⟩

/-- `x` is an inner point of the polygon `w` in the plane `pl`: all points of the plane near `x` are spanned
by the vertices. -/
def Inside (pl : Plane K) (w : List (Vec K)) (x : Vec K) : Prop :=
  pl.distTo x = 0 ∧ ∃ r, 0 < r ∧ ∀ y : Vec K, pl.distTo y = 0 →
    |y.x - x.x| ≤ r → |y.y - x.y| ≤ r → |y.z - x.z| ≤ r → InHull w y

/-- At the time `t` the line goes through the inside of the portal, into the leaf it leads to; `flat` bounds
the angle between the line and the plane of the portal (0: any angle but 0). -/
def Crosses (geo : Geo Portal K) (flat : K) (a u : Vec K) (p : Portal) (t : K) : Prop :=
  flat * (|u.x| + |u.y| + |u.z|) < 2 * dot (geo.plane p).normal u ∧
  Inside (geo.plane p) (geo.wind p).pts (lineAt a u t)

/-- The line goes through the portals at the times given, one after the other; where it goes through a
portal it is more than `gap` behind the later ones, and more than `gap` in front of the earlier ones. -/
structure Passes (geo : Geo Portal K) (flat gap : K) (a u : Vec K) (l : List (Portal × K)) : Prop where
  crosses : ∀ x ∈ l, Crosses geo flat a u x.1 x.2
  order : l.Pairwise fun x y => x.2 < y.2 ∧
    gap < (geo.plane x.1).distTo (lineAt a u y.2) ∧ (geo.plane y.1).distTo (lineAt a u x.2) < -gap

/-- Some line goes through all portals of the walk in order. -/
def Stabbed (geo : Geo Portal K) (flat gap : K) (c : List Portal) : Prop :=
  ∃ a u l, l.map Prod.fst = c ∧ Passes geo flat gap a u l

/-- What is assumed of a map. The planes of portals have normals of length 1; windings are convex polygons in
these planes, turning to the left as seen against the normal (`LoadPortals`, vis/vis.cc:639-661); the sphere
of a winding contains it (`set_winding_sphere`, include/vis/vis.hh:104-122); the two portals of a pair have
opposite planes and windings (vis/vis.cc:646-661); leafs are convex: the portals that lead into a leaf are
not in front of the planes of the portals that lead out of it; no portal joins a leaf with itself. -/
structure MapOk (G : Graph Leaf Portal) (geo : Geo Portal K) : Prop where
  unit : ∀ p, UnitNormal (geo.plane p)
  convex : ∀ p, ConvexIn (geo.plane p).normal (geo.plane p).dist (geo.wind p).pts
  radius : ∀ p, 0 ≤ (geo.wind p).radius
  sphere : ∀ p, ∀ v ∈ (geo.wind p).pts, (v.x - (geo.wind p).origin.x) ^ 2 + (v.y - (geo.wind p).origin.y) ^ 2 +
    (v.z - (geo.wind p).origin.z) ^ 2 ≤ (geo.wind p).radius ^ 2
  rev_plane : ∀ p, geo.plane (G.rev p) = ⟨⟨-(geo.plane p).normal.x, -(geo.plane p).normal.y, -(geo.plane p).normal.z⟩,
    -(geo.plane p).dist⟩
  rev_wind : ∀ p, (geo.wind (G.rev p)).pts = (geo.wind p).pts.reverse
  leaf_convex : ∀ p q, G.owner p = G.dest q → ∀ v ∈ (geo.wind q).pts, (geo.plane p).distTo v ≤ 0
  no_loop : ∀ p, G.owner p ≠ G.dest p

/-- What is assumed of the configuration: distances are compared without a tolerance, and vectors that are not
too short are scaled to length 1. -/
structure CfgOk (cfg : Cfg K) : Prop where
  on : cfg.on = 0
  len : 0 < cfg.len
  unit : ∀ v : Vec K, cfg.len ≤ dot v v → ∃ c, 0 < c ∧ cfg.unit v = ⟨c * v.x, c * v.y, c * v.z⟩ ∧
    dot (cfg.unit v) (cfg.unit v) = 1

end Verif.Vis
