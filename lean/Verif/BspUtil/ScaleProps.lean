import Verif.BspUtil.ScaleLemmas
import Mathlib.Analysis.Real.Sqrt

/-! C204: `bsputil --scale` and the planes, nodes, faces and brushes of a map. -/

namespace Verif.BspUtil.Scale

open Geom Tree Decompile Spec

set_option linter.unusedSectionVars false

variable {K : Type} [Field K] [LinearOrder K] [IsStrictOrderedRing K]

/-- The exact image of a plane (lemma). -/
theorem exact_side {len : Vec K → K} (hl : LenOk len) {s : Vec K} (hs : Factors s) (h2 : ¬ HalfTurn s) {p : DPlane K} (hp : PlaneOk p) (x : Vec K) :
    (0 < (scaledPlane len s p).plane.distTo (image s x) ↔ 0 < p.plane.distTo x) ∧
      ((scaledPlane len s p).plane.distTo (image s x) = 0 ↔ p.plane.distTo x = 0) := by
  obtain ⟨-, ⟨c, hc, h⟩, -⟩ := scaled_plane hl hs hp.unit
  have hpos := mul_pos hc (sgn_det hs h2)
  rw [h x]
  exact ⟨mul_pos_iff_of_pos_left hpos, by rw [mul_eq_zero]; exact or_iff_right hpos.ne'⟩

/-- What the list of planes holds for the number of a plane (lemma). -/
theorem new_plane {env : Env K} (hl : LenOk env.len) (h0 : 0 ≤ env.epsN) (h1 : 0 ≤ env.epsD) {s : Vec K} (hs : Factors s) {m : Map K}
    (hp : ∀ p ∈ m.planes, PlaneOk p) {i : Nat} {pl : DPlane K} (hi : m.planes[i]? = some pl) :
    ∃ q, (scale env s m).planes[remapped (addAll env.epsN env.epsD env.pick [] (m.planes.map (scaledPlane env.len s))).1 i]? = some q ∧
      Tree.Spec.Near env.epsN env.epsD (scaledPlane env.len s pl).plane q.plane := by
  obtain ⟨-, -, -, h⟩ := addAll_ok' h0 h1 env.pick (m.planes.map (scaledPlane env.len s)) pairs_nil
    (by intro p hp'; obtain ⟨x, hx, rfl⟩ := List.mem_map.1 hp'; exact scaled_ok hl hs (hp x hx))
  obtain ⟨j, q, hj, hq, hn⟩ := h i (scaledPlane env.len s pl) (by rw [List.getElem?_map, hi]; rfl)
  refine ⟨q, ?_, hn⟩
  have : remapped (addAll env.epsN env.epsD env.pick [] (m.planes.map (scaledPlane env.len s))).1 i = j := by
    rw [remapped, List.getD_eq_getElem?_getD, hj]; rfl
  rw [this]
  exact hq

/-- **C204 (faces).** Unless exactly two factors are negative, each face of the scaled map has a plane that is, up to the tolerance, the image of its
old one: there is a plane that has the image of a point in front of it just if the point was in front of the old plane, and on it just if the
point was on it. -/
theorem scale_faces_partial {env : Env K} (hl : LenOk env.len) (h0 : 0 ≤ env.epsN) (h1 : 0 ≤ env.epsD) {s : Vec K} (hs : Factors s)
    (h2 : ¬ HalfTurn s) {m : Map K} (hp : ∀ p ∈ m.planes, PlaneOk p) {k : Nat} {f : SFace} (hf : m.faces[k]? = some f) {pl : DPlane K}
    (hi : m.planes[f.plane]? = some pl) :
    ∃ (f' : SFace) (q : DPlane K) (P : Plane K), (scale env s m).faces[k]? = some f' ∧ f'.side = f.side ∧
      (scale env s m).planes[f'.plane]? = some q ∧ Tree.Spec.Near env.epsN env.epsD P q.plane ∧ dot P.normal P.normal = 1 ∧
      ∀ x, (0 < P.distTo (image s x) ↔ 0 < pl.plane.distTo x) ∧ (P.distTo (image s x) = 0 ↔ pl.plane.distTo x = 0) := by
  obtain ⟨q, hq, hn⟩ := new_plane hl h0 h1 hs hp hi
  have hok := hp pl (List.mem_of_getElem? hi)
  exact ⟨{ f with plane := remapped (addAll env.epsN env.epsD env.pick [] (m.planes.map (scaledPlane env.len s))).1 f.plane }, q,
    (scaledPlane env.len s pl).plane, by simp [scale, hf], rfl, hq, hn, (scaled_plane hl hs hok.unit).1, exact_side hl hs h2 hok⟩

/-- **C204 (brush sides).** The same for the sides of brushes. -/
theorem scale_brushsides_partial {env : Env K} (hl : LenOk env.len) (h0 : 0 ≤ env.epsN) (h1 : 0 ≤ env.epsD) {s : Vec K} (hs : Factors s)
    (h2 : ¬ HalfTurn s) {m : Map K} (hp : ∀ p ∈ m.planes, PlaneOk p) {k i : Nat} (hf : m.brushsides[k]? = some i) {pl : DPlane K}
    (hi : m.planes[i]? = some pl) :
    ∃ (j : Nat) (q : DPlane K) (P : Plane K), (scale env s m).brushsides[k]? = some j ∧
      (scale env s m).planes[j]? = some q ∧ Tree.Spec.Near env.epsN env.epsD P q.plane ∧ dot P.normal P.normal = 1 ∧
      ∀ x, (0 < P.distTo (image s x) ↔ 0 < pl.plane.distTo x) ∧ (P.distTo (image s x) = 0 ↔ pl.plane.distTo x = 0) := by
  obtain ⟨q, hq, hn⟩ := new_plane hl h0 h1 hs hp hi
  have hok := hp pl (List.mem_of_getElem? hi)
  exact ⟨_, q, (scaledPlane env.len s pl).plane, by simp only [scale, List.getElem?_map, hf, Option.map_some], hq, hn,
    (scaled_plane hl hs hok.unit).1, exact_side hl hs h2 hok⟩

/-- **C204, a defect.** With exactly two negative factors (a half turn) all planes come out the wrong way round: what was in front of a side of a
brush is behind it, for every side. -/
theorem half_turn_reversed {env : Env K} (hl : LenOk env.len) (h0 : 0 ≤ env.epsN) (h1 : 0 ≤ env.epsD) {s : Vec K} (hs : Factors s)
    (h2 : HalfTurn s) {m : Map K} (hp : ∀ p ∈ m.planes, PlaneOk p) {k i : Nat} (hf : m.brushsides[k]? = some i) {pl : DPlane K}
    (hi : m.planes[i]? = some pl) :
    ∃ (j : Nat) (q : DPlane K) (P : Plane K), (scale env s m).brushsides[k]? = some j ∧
      (scale env s m).planes[j]? = some q ∧ Tree.Spec.Near env.epsN env.epsD P q.plane ∧ dot P.normal P.normal = 1 ∧
      ∀ x, (0 < P.distTo (image s x) ↔ pl.plane.distTo x < 0) := by
  obtain ⟨q, hq, hn⟩ := new_plane hl h0 h1 hs hp hi
  have hok := hp pl (List.mem_of_getElem? hi)
  refine ⟨_, q, (scaledPlane env.len s pl).plane, by simp only [scale, List.getElem?_map, hf, Option.map_some], hq, hn,
    (scaled_plane hl hs hok.unit).1, ?_⟩
  intro x
  obtain ⟨-, ⟨c, hc, h⟩, -⟩ := scaled_plane hl hs hok.unit
  have hneg := mul_neg_of_pos_of_neg hc (sgn_det_half hs h2)
  rw [h x]
  exact ⟨fun h' => by
    by_contra h''
    exact absurd (mul_nonpos_of_nonpos_of_nonneg hneg.le (not_lt.1 h'')) (not_le.2 h'), fun h' => mul_pos_of_neg_of_neg hneg h'⟩

/-! ### Nodes -/

theorem clear_dist {env : Env K} (hl : LenOk env.len) {s : Vec K} (hs : Factors s) (h2 : ¬ HalfTurn s) {pl : DPlane K} (hok : PlaneOk pl)
    {p : Vec K} (hc : Clear env.epsN env.epsD s p pl.plane) :
    tol env.epsN env.epsD (image s p) < |(scaledPlane env.len s pl).plane.distTo (image s p)| := by
  obtain ⟨hx, hy, hz⟩ := hs
  have hu := (scaled_plane hl ⟨hx, hy, hz⟩ hok.unit).1
  set P := (scaledPlane env.len s pl).plane with hP
  set d := P.distTo (image s p) with hd
  have him : ∀ y : Vec K, image s ⟨y.x / s.x, y.y / s.y, y.z / s.z⟩ = y := by
    intro y
    simp only [image, div_mul_cancel₀ _ hx, div_mul_cancel₀ _ hy, div_mul_cancel₀ _ hz]
  set y := vsub (image s p) (vmul d P.normal) with hydef
  have hy0 : P.distTo y = 0 := by
    simp only [Plane.distTo, dot] at hd hu ⊢
    simp only [hydef, vsub, vmul]
    linear_combination -hd - d * hu
  have hfoot := ((exact_side hl ⟨hx, hy, hz⟩ h2 hok ⟨y.x / s.x, y.y / s.y, y.z / s.z⟩).2).1 (by rw [him]; exact hy0)
  have := hc _ hfoot
  rw [him] at this
  have hsq : sqDist y (image s p) = d * d := by
    simp only [sqDist, hydef, vsub, vmul]
    simp only [dot] at hu
    linear_combination d * d * hu
  rw [hsq, ← abs_mul_abs_self d] at this
  exact lt_of_mul_self_lt_mul_self₀ (abs_nonneg d) this

theorem fast {p : DPlane K} (h : Faces p) (x : Vec K) : p.distFast x = p.plane.distTo x := distFast_of_typeOk h x

theorem neg_dist (p : DPlane K) (x : Vec K) : (neg p).plane.distTo x = -p.plane.distTo x := by
  simp only [neg, negPlane, negVec, Plane.distTo, dot]; ring

/-- **C204 (nodes).** Unless exactly two factors are negative, looking up the image of a point in the scaled map finds the leaf that looking up the
point finds in the old one, if the image is not within the tolerance of the image of a plane of a node. -/
theorem scale_leaf_partial {env : Env K} (hl : LenOk env.len) (h0 : 0 ≤ env.epsN) (h1 : 0 ≤ env.epsD) {s : Vec K} (hs : Factors s)
    (h2 : ¬ HalfTurn s) {m : Map K} (hp : ∀ p ∈ m.planes, PlaneOk p)
    (hn : ∀ n ∈ m.nodes, ∃ pl, m.planes[n.1.planenum]? = some pl ∧ Faces pl) {p : Vec K}
    (hc : ∀ n ∈ m.nodes, ∀ pl, m.planes[n.1.planenum]? = some pl → Clear env.epsN env.epsD s p pl.plane) (fuel : Nat) (n : Int) :
    findLeaf (scale env s m).planes ((scale env s m).nodes.map Prod.fst) ((scale env s m).leafs.map Prod.fst) (image s p) fuel n =
      findLeaf m.planes (m.nodes.map Prod.fst) (m.leafs.map Prod.fst) p fuel n := by
  obtain ⟨hpairs, -, -, -⟩ := addAll_ok' h0 h1 env.pick (m.planes.map (scaledPlane env.len s)) pairs_nil
    (by intro p hp'; obtain ⟨x, hx, rfl⟩ := List.mem_map.1 hp'; exact scaled_ok hl hs (hp x hx))
  have hleafs : (scale env s m).leafs.map Prod.fst = m.leafs.map Prod.fst := by
    simp [scale, List.map_map, Function.comp_def]
  induction fuel generalizing n with
  | zero => rfl
  | succ fuel ih =>
    by_cases hneg : n < 0
    · simp only [findLeaf, if_pos hneg, hleafs]
    · have e : ((scale env s m).nodes.map Prod.fst)[n.toNat]? =
          (m.nodes[n.toNat]?).map fun x => scaleNode (addAll env.epsN env.epsD env.pick [] (m.planes.map (scaledPlane env.len s))).1 x.1 := by
        simp [scale, List.getElem?_map, Option.map_map, Function.comp_def]
      have e' : (m.nodes.map Prod.fst)[n.toNat]? = (m.nodes[n.toNat]?).map Prod.fst := by simp
      conv_lhs => rw [findLeaf]
      conv_rhs => rw [findLeaf]
      rw [if_neg hneg, if_neg hneg, e, e']
      cases hnode : m.nodes[n.toNat]? with
      | none => rfl
      | some nd =>
        have hmem := List.mem_of_getElem? hnode
        obtain ⟨pl, hpl, hface⟩ := hn nd hmem
        have hok := hp pl (List.mem_of_getElem? hpl)
        obtain ⟨q, hq, hnear⟩ := new_plane hl h0 h1 hs hp hpl
        have hcl := clear_dist hl hs h2 hok (hc nd hmem pl hpl)
        have hd := near_dist hnear (image s p)
        have hside := (exact_side hl hs h2 hok p).1
        have hzero := (exact_side hl hs h2 hok p).2
        have ht : 0 ≤ tol env.epsN env.epsD (image s p) := by
          unfold tol
          have := mul_nonneg h0 (add_nonneg (add_nonneg (abs_nonneg (image s p).x) (abs_nonneg (image s p).y)) (abs_nonneg (image s p).z))
          linarith
        have hpos : (0 ≤ q.plane.distTo (image s p) ↔ 0 ≤ pl.plane.distTo p) ∧ q.plane.distTo (image s p) ≠ 0 ∧ pl.plane.distTo p ≠ 0 := by
          rw [abs_le] at hd
          rcases le_or_gt 0 ((scaledPlane env.len s pl).plane.distTo (image s p)) with h | h
          · rw [abs_of_nonneg h] at hcl
            have hp0 : 0 < pl.plane.distTo p := hside.1 (by linarith)
            exact ⟨⟨fun _ => hp0.le, fun _ => by linarith [hd.2]⟩, by linarith [hd.2], hp0.ne'⟩
          · rw [abs_of_neg h] at hcl
            have hp0 : ¬ 0 < pl.plane.distTo p := fun h' => absurd (hside.2 h') (not_lt.2 h.le)
            have hne : pl.plane.distTo p ≠ 0 := fun h' => h.ne (hzero.2 h')
            have hq0 : q.plane.distTo (image s p) < 0 := by linarith [hd.1]
            exact ⟨⟨fun h' => absurd hq0 (not_lt.2 h'), fun h' => absurd (lt_of_le_of_ne h' (Ne.symm hne)) hp0⟩, hq0.ne, hne⟩
        simp only [Option.map_some, hpl]
        rw [fast hface]
        set j := remapped (addAll env.epsN env.epsD env.pick [] (m.planes.map (scaledPlane env.len s))).1 nd.1.planenum with hj
        have hlen : j < (scale env s m).planes.length := (List.getElem?_eq_some_iff.1 hq).1
        have heven : (scale env s m).planes.length % 2 = 0 := hpairs.1
        by_cases hodd : j % 2 = 1
        · have hpp : ∃ a, (scale env s m).planes[j - 1]? = some a := ⟨_, List.getElem?_eq_getElem (by omega)⟩
          obtain ⟨a, ha⟩ := hpp
          have hk := hpairs.2 (j / 2) a q (by rw [show 2 * (j / 2) = j - 1 by omega]; exact ha) (by rw [show 2 * (j / 2) + 1 = j by omega]; exact hq)
          obtain ⟨rfl, hfa⟩ := hk
          simp only [scaleNode, ← hj, if_pos hodd, ha]
          rw [fast hfa]
          rw [neg_dist] at hpos
          by_cases hh : 0 ≤ pl.plane.distTo p
          · have h' := hpos.1.2 hh
            have : ¬ a.plane.distTo (image s p) ≥ 0 := by
              intro h''
              exact hpos.2.1 (by linarith)
            rw [if_neg this, if_pos hh]
            exact ih _
          · have : a.plane.distTo (image s p) ≥ 0 := by
              by_contra h''
              exact hh (hpos.1.1 (by linarith [not_le.1 h'']))
            rw [if_pos this, if_neg hh]
            exact ih _
        · have hpp : ∃ b, (scale env s m).planes[j + 1]? = some b := ⟨_, List.getElem?_eq_getElem (by omega)⟩
          obtain ⟨b, hb⟩ := hpp
          have hk := hpairs.2 (j / 2) q b (by rw [show 2 * (j / 2) = j by omega]; exact hq) (by rw [show 2 * (j / 2) + 1 = j + 1 by omega]; exact hb)
          simp only [scaleNode, ← hj, if_neg hodd, hq]
          rw [fast hk.2]
          by_cases hh : 0 ≤ pl.plane.distTo p
          · rw [if_pos (hpos.1.2 hh), if_pos hh]
            exact ih _
          · rw [if_neg (fun h' => hh (hpos.1.1 h')), if_neg hh]
            exact ih _

/-! ### Cases -/

/-- Two leafs on the sides of the plane x = 8. -/
def exMap (K : Type) [Field K] : Map K where
  planes := [⟨⟨⟨1, 0, 0⟩, 8⟩, .x⟩]
  nodes := [(⟨0, -2, -1, 0, 0⟩, ⟨⟨-16, -16, -16⟩, ⟨16, 16, 16⟩⟩)]
  leafs := [(⟨-2, 0, 0, 0, -1, 0, 0⟩, ⟨⟨-16, -16, -16⟩, ⟨8, 16, 16⟩⟩), (⟨-1, 0, 0, 0, -1, 0, 0⟩, ⟨⟨8, -16, -16⟩, ⟨16, 16, 16⟩⟩)]
  clipnodes := []
  models := []
  faces := [⟨0, false, 0, 0⟩]
  surfedges := []
  edges := []
  vertexes := []
  brushsides := [0]
  texinfos := []
  decoupled := none
  grid := none

noncomputable def exLen (v : Vec ℝ) : ℝ := Real.sqrt (dot v v)

theorem exLen_ok : LenOk exLen := by
  intro v
  have h : (0 : ℝ) ≤ dot v v := by simp only [dot]; nlinarith [mul_self_nonneg v.x, mul_self_nonneg v.y, mul_self_nonneg v.z]
  exact ⟨Real.sqrt_nonneg _, Real.mul_self_sqrt h⟩

/-- A case of `scale_leaf_partial`: a mirror image; the point (10, 0, 0), in front of x = 8, goes to (-20, 0, 0). -/
example : ∃ (env : Env ℝ) (s p : Vec ℝ), LenOk env.len ∧ 0 ≤ env.epsN ∧ 0 ≤ env.epsD ∧ Factors s ∧ ¬ HalfTurn s ∧ Mirror s ∧
    (∀ p ∈ (exMap ℝ).planes, PlaneOk p) ∧
    (∀ n ∈ (exMap ℝ).nodes, ∃ pl, (exMap ℝ).planes[n.1.planenum]? = some pl ∧ Faces pl) ∧
    (∀ n ∈ (exMap ℝ).nodes, ∀ pl, (exMap ℝ).planes[n.1.planenum]? = some pl → Clear env.epsN env.epsD s p pl.plane) := by
  refine ⟨⟨exLen, 1 / 2000000, 1 / 20000, fun _ => 0, fun x => x, fun x => x⟩, ⟨-2, 1, 1⟩, ⟨10, 0, 0⟩, exLen_ok, by norm_num, by norm_num,
    ⟨by norm_num, by norm_num, by norm_num⟩, ?_, ?_, ?_, ?_, ?_⟩
  · unfold HalfTurn; norm_num
  · unfold Mirror; norm_num
  · intro p hp
    simp only [exMap, List.mem_singleton] at hp
    subst hp
    exact ⟨by norm_num [dot], fun _ => Or.inl rfl, fun h => (by cases h), fun h => (by cases h)⟩
  · intro n hn
    simp only [exMap, List.mem_singleton] at hn
    subst hn
    exact ⟨_, rfl, fun _ => rfl, fun h => (by cases h), fun h => (by cases h)⟩
  · intro n hn pl hpl
    simp only [exMap, List.mem_singleton] at hn
    subst hn
    simp only [exMap, List.getElem?_cons_zero, Option.some.injEq] at hpl
    subst hpl
    intro x hx
    simp only [Plane.distTo, dot] at hx
    have hx8 : x.x = 8 := by linarith
    simp only [tol, image, sqDist, hx8]
    norm_num
    nlinarith [mul_self_nonneg x.y, mul_self_nonneg x.z]

/-- A case of `half_turn_reversed`. -/
example : Factors (⟨-1, -1, 1⟩ : Vec ℝ) ∧ HalfTurn (⟨-1, -1, 1⟩ : Vec ℝ) ∧ (exMap ℝ).brushsides[0]? = some 0 ∧
    (exMap ℝ).planes[0]? = some ⟨⟨⟨1, 0, 0⟩, 8⟩, .x⟩ :=
  ⟨⟨by norm_num, by norm_num, by norm_num⟩, Or.inl ⟨by norm_num, by norm_num, by norm_num⟩, rfl, rfl⟩

/-- The length of vectors along an axis. -/
def axisLen (v : Vec ℚ) : ℚ := |v.x| + |v.y| + |v.z|

def exEnv : Env ℚ := ⟨axisLen, 1 / 2000000, 1 / 20000, fun _ => 0, fun x => x, fun x => x⟩

/-- **C204, a defect.** A half turn about the z axis: the point (10, 0, 0) is in leaf 1, and its image (-10, 0, 0) in leaf 0 of the new map. -/
theorem scale_two_mirrors :
    (findLeaf (exMap ℚ).planes ((exMap ℚ).nodes.map Prod.fst) ((exMap ℚ).leafs.map Prod.fst) ⟨10, 0, 0⟩ 2 0) =
      some (.ok (1, ⟨-1, 0, 0, 0, -1, 0, 0⟩)) ∧
    (findLeaf (scale exEnv ⟨-1, -1, 1⟩ (exMap ℚ)).planes ((scale exEnv ⟨-1, -1, 1⟩ (exMap ℚ)).nodes.map Prod.fst)
      ((scale exEnv ⟨-1, -1, 1⟩ (exMap ℚ)).leafs.map Prod.fst) (image ⟨-1, -1, 1⟩ ⟨10, 0, 0⟩) 2 0) =
      some (.ok (0, ⟨-2, 0, 0, 0, -1, 0, 0⟩)) := by
  constructor <;> decide +kernel

/-- A map of which the only clip node is on the plane y = 0. -/
def clipMap : Map ℚ :=
  { exMap ℚ with planes := [⟨⟨⟨1, 0, 0⟩, 8⟩, .x⟩, ⟨⟨⟨0, 1, 0⟩, 0⟩, .y⟩], clipnodes := [⟨1, -1, -2⟩] }

/-- **C204, a defect.** Clip nodes keep the numbers of their planes while the planes get new ones: after scaling by 2, the image of a point in the open
(contents -1) is in something solid (contents -2). -/
theorem scale_clip_wrong :
    findClip clipMap.planes clipMap.clipnodes ⟨-20, 1, 0⟩ 2 (-1) false 0 = some (.ok ⟨0, true, -1⟩) ∧
    findClip (scale exEnv ⟨2, 2, 2⟩ clipMap).planes (scale exEnv ⟨2, 2, 2⟩ clipMap).clipnodes (image ⟨2, 2, 2⟩ ⟨-20, 1, 0⟩) 2 (-1) false 0 =
      some (.ok ⟨0, false, -2⟩) := by
  constructor <;> decide +kernel

/-- The same for the clip nodes of every map: the scaled map has them as they were. -/
theorem scale_clipnodes_kept (env : Env K) (s : Vec K) (m : Map K) : (scale env s m).clipnodes = m.clipnodes := rfl

end Verif.BspUtil.Scale
