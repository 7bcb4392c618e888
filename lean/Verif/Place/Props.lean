import Verif.Place.Lemmas
import Verif.Hulls.Model
import Mathlib.Tactic.NormNum

/-!
C144: Where the brushes of an external map come to be. C145: What the option `-scale` does to a brush.
-/

namespace Verif.Place

open Geom BrushBsp Place.Spec

namespace Spec

/-- The scale that the key `_external_map_scale` asks for, of which `n` numbers were read: three numbers, or one for all
directions; without it, or if it is 0, the map keeps its size. -/
def ScaleFor {K : Type} [Field K] (n : Nat) (v sc : Vec K) : Prop :=
  (3 ≤ n → sc = v) ∧ (n < 3 → v.x ≠ 0 → sc = ⟨v.x, v.x, v.x⟩) ∧ (n < 3 → v.x = 0 → sc = ⟨1, 1, 1⟩)

/-- The angles: `_external_map_angles`, and if these are 0, the yaw `_external_map_angle`. -/
def AnglesFor {K : Type} [Field K] [LinearOrder K] (eps : K) (a : Vec K) (angle : K) (r : Vec K) : Prop :=
  ((eps < |a.x| ∨ eps < |a.y| ∨ eps < |a.z|) → r = a) ∧
  ((|a.x| ≤ eps ∧ |a.y| ≤ eps ∧ |a.z| ≤ eps) → r = ⟨a.x, angle, a.z⟩)

end Spec

variable {K : Type} [Field K] [LinearOrder K] [IsStrictOrderedRing K]

omit [IsStrictOrderedRing K] in
theorem scaleFor_eq {n : Nat} {v sc : Vec K} (h : ScaleFor n v sc) : chooseScale n v = sc := by
  obtain ⟨h1, h2, h3⟩ := h
  unfold chooseScale
  by_cases hn : n < 3
  · rw [if_pos hn]
    by_cases hx : v.x = 0
    · rw [if_pos hx, h3 hn hx]
    · rw [if_neg hx, h2 hn hx]
  · rw [if_neg hn, h1 (by omega)]

omit [IsStrictOrderedRing K] in
theorem anglesFor_eq {eps : K} {a : Vec K} {angle : K} {r : Vec K} (h : AnglesFor eps a angle r) :
    chooseAngles eps a angle = r := by
  unfold chooseAngles
  by_cases hn : |a.x| ≤ eps ∧ |a.y| ≤ eps ∧ |a.z| ≤ eps
  · rw [if_pos hn, h.2 hn]
  · rw [if_neg hn]
    refine (h.1 ?_).symm
    by_contra h'
    push Not at h'
    exact hn h'

theorem place_tex {env : Env K} (hc : Circular env) {eps : K} {k : Keys K} {sc : Vec K}
    (e : chooseScale k.scaleCount k.scale = sc) (hs : sc.x ≠ 0 ∧ sc.y ≠ 0 ∧ sc.z ≠ 0) (f : Face K) (q : Vec K) :
    texAt (placeFace env eps k f) (placed env sc (chooseAngles eps k.angles k.angle) k.origin q) = texAt f q := by
  unfold placed placeFace
  rw [← rotation_app, translate_tex, rotate_tex hc, e, scale_tex hs]

omit [LinearOrder K] [IsStrictOrderedRing K] in
theorem placed_onto {env : Env K} (hc : Circular env) {sc : Vec K} (hs : sc.x ≠ 0 ∧ sc.y ≠ 0 ∧ sc.z ≠ 0) (a o p : Vec K) :
    ∃ q, placed env sc a o q = p := by
  have bx : ∀ {c s : K} (_ : c * c + s * s = 1) (v : Vec K), turnX c s (turnX c (-s) v) = v := by
    intro c s h v
    obtain ⟨x, y, z⟩ := v
    simp only [turnX, Vec.mk.injEq]
    exact ⟨trivial, by linear_combination y * h, by linear_combination z * h⟩
  have by_ : ∀ {c s : K} (_ : c * c + s * s = 1) (v : Vec K), turnY c s (turnY c (-s) v) = v := by
    intro c s h v
    obtain ⟨x, y, z⟩ := v
    simp only [turnY, Vec.mk.injEq]
    exact ⟨by linear_combination x * h, trivial, by linear_combination z * h⟩
  have bz : ∀ {c s : K} (_ : c * c + s * s = 1) (v : Vec K), turnZ c s (turnZ c (-s) v) = v := by
    intro c s h v
    obtain ⟨x, y, z⟩ := v
    simp only [turnZ, Vec.mk.injEq]
    exact ⟨by linear_combination x * h, by linear_combination y * h, trivial⟩
  have bs : ∀ v : Vec K, stretch sc (stretch ⟨1 / sc.x, 1 / sc.y, 1 / sc.z⟩ v) = v := by
    intro v
    obtain ⟨hx, hy, hz⟩ := hs
    cases v
    simp only [stretch, Vec.mk.injEq]
    refine ⟨?_, ?_, ?_⟩ <;> field_simp
  refine ⟨stretch ⟨1 / sc.x, 1 / sc.y, 1 / sc.z⟩ (turnX (env.cos a.z) (-env.sin a.z) (turnY (env.cos a.x) (-env.sin a.x)
    (turnZ (env.cos a.y) (-env.sin a.y) (sub p o)))), ?_⟩
  unfold placed
  rw [bs, bx (hc _), by_ (hc _), bz (hc _)]
  cases p
  simp only [add, sub, Vec.mk.injEq]
  refine ⟨?_, ?_, ?_⟩ <;> ring

/-- C144. Every brush of an external map is where the keys say: its points are scaled, turned and moved, and every face has at
the moved point the texture coordinates that it had. -/
theorem external_map_placed {env : Env K} (hn : Normalizes env) (hc : Circular env) {eps : K} {k : Keys K} {sc angles : Vec K}
    (hsc : ScaleFor k.scaleCount k.scale sc) (hang : AnglesFor eps k.angles k.angle angles)
    (hpos : 0 < sc.x ∧ 0 < sc.y ∧ 0 < sc.z) {bs : List (List (Face K))} (hbs : ∀ b ∈ bs, ∀ f ∈ b, Proper env f) :
    (placeBrushes env eps k bs).length = bs.length ∧ (∀ p, ∃ q, placed env sc angles k.origin q = p) ∧
    ∀ (i : Nat) (b b' : List (Face K)), bs[i]? = some b → (placeBrushes env eps k bs)[i]? = some b' →
      (∀ q, In b' (placed env sc angles k.origin q) ↔ In b q) ∧ b'.length = b.length ∧
      ∀ (j : Nat) (f f' : Face K), b[j]? = some f → b'[j]? = some f' → ∀ q, texAt f' (placed env sc angles k.origin q) = texAt f q := by
  have e1 := scaleFor_eq hsc
  have e2 := anglesFor_eq hang
  obtain ⟨px, py, pz⟩ := hpos
  refine ⟨by simp [placeBrushes], fun p => placed_onto hc ⟨ne_of_gt px, ne_of_gt py, ne_of_gt pz⟩ _ _ p, ?_⟩
  intro i b b' hb hb'
  unfold placeBrushes at hb'
  rw [List.getElem?_map, hb, Option.map_some, Option.some.injEq] at hb'
  subst hb'
  have hm := List.mem_of_getElem? hb
  have hd : 0 < sc.x * sc.y * sc.z := mul_pos (mul_pos px py) pz
  refine ⟨?_, by simp, ?_⟩
  · intro q
    unfold In
    simp only [List.mem_map, forall_exists_index, and_imp, forall_apply_eq_imp_iff₂]
    apply forall_congr'
    intro f
    apply imp_congr_right
    intro hf
    obtain ⟨_, c, hcp, he⟩ := place_moved hn hc eps k (hbs b hm f hf) (by rw [e1]; exact ne_of_gt hd)
    rw [e1, e2] at he
    rw [he]
    have : 0 < c * (sc.x * sc.y * sc.z) := mul_pos hcp hd
    constructor
    · intro h
      by_contra h'
      have := mul_pos this (not_le.1 h')
      linarith
    · intro h
      exact mul_nonpos_of_nonneg_of_nonpos (le_of_lt this) h
  · intro j f f' hf hf' q
    rw [List.getElem?_map, hf, Option.map_some, Option.some.injEq] at hf'
    subst hf'
    have := place_tex (eps := eps) hc e1 ⟨ne_of_gt px, ne_of_gt py, ne_of_gt pz⟩ f q
    rw [e2] at this
    exact this

/-- If the scale mirrors the map, the faces look inwards: a point is in the brush if it was in front of, or on, every face. -/
theorem mirrored_inside_out {env : Env K} (hn : Normalizes env) (hc : Circular env) {eps : K} {k : Keys K} {sc angles : Vec K}
    (hsc : ScaleFor k.scaleCount k.scale sc) (hang : AnglesFor eps k.angles k.angle angles)
    (hneg : sc.x * sc.y * sc.z < 0) {bs : List (List (Face K))} (hbs : ∀ b ∈ bs, ∀ f ∈ b, Proper env f) :
    ∀ (i : Nat) (b b' : List (Face K)), bs[i]? = some b → (placeBrushes env eps k bs)[i]? = some b' →
      ∀ q, In b' (placed env sc angles k.origin q) ↔ ∀ f ∈ b, 0 ≤ f.plane.distTo q := by
  have e1 := scaleFor_eq hsc
  have e2 := anglesFor_eq hang
  intro i b b' hb hb'
  unfold placeBrushes at hb'
  rw [List.getElem?_map, hb, Option.map_some, Option.some.injEq] at hb'
  subst hb'
  have hm := List.mem_of_getElem? hb
  intro q
  unfold In
  simp only [List.mem_map, forall_exists_index, and_imp, forall_apply_eq_imp_iff₂]
  apply forall_congr'
  intro f
  apply imp_congr_right
  intro hf
  obtain ⟨_, c, hcp, he⟩ := place_moved hn hc eps k (hbs b hm f hf) (by rw [e1]; exact ne_of_lt hneg)
  rw [e1, e2] at he
  rw [he]
  have : c * (sc.x * sc.y * sc.z) < 0 := mul_neg_of_pos_of_neg hcp hneg
  constructor
  · intro h
    by_contra h'
    have := mul_pos_of_neg_of_neg this (not_le.1 h')
    linarith
  · intro h
    exact mul_nonpos_of_nonpos_of_nonneg (le_of_lt this) h

/-- C145, part. A brush of an entity that has no origin of its own and whose faces are all from the map is scaled, with its
texture. What is missing is false: see `scale_forgets_origin` and `scaled_bevels_lose_brush`. -/
theorem scale_option_partial {env : Env K} (hn : Normalizes env) {s : K} (hs : 0 < s) (old : Bool) {b : List (Face K)}
    (hb : ∀ f ∈ b, Proper env f) :
    (∀ q, In (b.map (finishFace env none old s)) (stretch ⟨s, s, s⟩ q) ↔ In b q) ∧
    ∀ f ∈ b, ∀ q, texAt (finishFace env none old s f) (stretch ⟨s, s, s⟩ q) = texAt f q := by
  have e : s = 1 → ∀ q : Vec K, stretch ⟨s, s, s⟩ q = q := by
    intro h q
    cases q
    simp [stretch, h]
  constructor
  · intro q
    unfold In
    simp only [List.mem_map, forall_exists_index, and_imp, forall_apply_eq_imp_iff₂]
    apply forall_congr'
    intro f
    apply imp_congr_right
    intro hf
    by_cases h1 : s = 1
    · rw [e h1]
      simp only [finishFace, h1, ne_eq, not_true_eq_false, if_false]
    · simp only [finishFace, h1, ne_eq, not_false_eq_true, if_true]
      have hd : 0 < s * s * s := mul_pos (mul_pos hs hs) hs
      obtain ⟨_, c, hcp, he⟩ := scale_moved (sc := ⟨s, s, s⟩) hn (hb f hf) (ne_of_gt hd)
      rw [he]
      have : 0 < c * (s * s * s) := mul_pos hcp hd
      constructor
      · intro h
        by_contra h'
        have := mul_pos this (not_le.1 h')
        linarith
      · intro h
        exact mul_nonpos_of_nonneg_of_nonpos (le_of_lt this) h
  · intro f _ q
    by_cases h1 : s = 1
    · rw [e h1]
      simp only [finishFace, h1, ne_eq, not_true_eq_false, if_false]
    · simp only [finishFace, h1, ne_eq, not_false_eq_true, if_true]
      exact scale_tex ⟨ne_of_gt hs, ne_of_gt hs, ne_of_gt hs⟩ f q

omit [IsStrictOrderedRing K] in
/-- Without scaling the brush of an entity with an origin is moved so that the origin is at 0, bevels too; the texture goes
with it unless the option `-oldrottex` is given. -/
theorem origin_offsets {env : Env K} (o : Vec K) (old : Bool) (b : List (Face K)) :
    (∀ q, In (b.map (finishFace env (some o) old 1)) (sub q o) ↔ In b q) ∧
    ∀ f ∈ b, ∀ q, texAt (finishFace env (some o) false 1 f) (sub q o) = texAt f q ∧
      texAt (finishFace env (some o) true 1 f) q = texAt f q := by
  constructor
  · intro q
    unfold In
    simp only [List.mem_map, forall_exists_index, and_imp, forall_apply_eq_imp_iff₂]
    apply forall_congr'
    intro f
    apply imp_congr_right
    intro _
    have : (finishFace env (some o) old 1 f).plane.distTo (sub q o) = f.plane.distTo q := by
      cases old <;> simp only [finishFace, offsetFace, ne_eq, not_true_eq_false, if_false, Bool.false_eq_true, if_true,
        Plane.distTo, dot, sub] <;> ring
    rw [this]
  · intro f _ q
    constructor
    · simp only [finishFace, offsetFace, ne_eq, not_true_eq_false, if_false, Bool.false_eq_true, texAt, dot, sub, Prod.mk.injEq]
      constructor <;> ring
    · simp only [finishFace, offsetFace, ne_eq, not_true_eq_false, if_false, if_true, texAt]

omit [IsStrictOrderedRing K] in
/-- With scaling the planes are made from the points of the map again: the brush is where it would be without the origin,
although the engine draws it moved by the origin. -/
theorem scale_forgets_origin {env : Env K} (o : Vec K) (old : Bool) {s : K} (hs : s ≠ 1) (b : List (Face K)) (q : Vec K) :
    In (b.map (finishFace env (some o) old s)) q ↔ In (b.map (finishFace env none old s)) q := by
  have : ∀ f : Face K, (finishFace env (some o) old s f).plane = (finishFace env none old s f).plane := by
    intro f
    cases old <;> simp [finishFace, hs, offsetFace, scaleFace, setPts]
  unfold In
  simp only [List.mem_map, forall_exists_index, and_imp, forall_apply_eq_imp_iff₂, this]

/-- The face as the clip hulls take it. -/
def toHull (f : Face K) : Hulls.Face K := ⟨f.plane, [], f.bevel, 0⟩

omit [IsStrictOrderedRing K] in
theorem bevel_plane {env : Env K} (hn : Normalizes env) {o : Option (Vec K)} {old : Bool} {s : K} (hs : s ≠ 1) {f : Face K}
    (h0 : f.p0 = ⟨0, 0, 0⟩) (h1 : f.p1 = ⟨0, 0, 0⟩) (h2 : f.p2 = ⟨0, 0, 0⟩) :
    (finishFace env o old s f).plane = ⟨⟨0, 0, 0⟩, 0⟩ := by
  have hz : env.normalize ⟨0, 0, 0⟩ = ⟨0, 0, 0⟩ := hn.1
  cases o <;> cases old <;>
    simp [finishFace, hs, offsetFace, scaleFace, setPts, h0, h1, h2, diag, Mat.app, dot, sub, cross, hz]

omit [IsStrictOrderedRing K] in
theorem clip_zero {C : Type} (env : BrushBsp.Env K C) {eps : K} (heps : 0 ≤ eps) (i : Nat) (l : List (BrushBsp.Side K × Nat))
    (h : ∃ x ∈ l, x.2 ≠ i ∧ x.1.bevel = false ∧ env.planes (flipNum x.1.planenum) = ⟨⟨0, 0, 0⟩, 0⟩) :
    ∀ w, clipByOthers env eps i l w = none := by
  induction l with
  | nil => obtain ⟨x, hx, _⟩ := h; exact absurd hx (by simp)
  | cons x l ih =>
    intro w
    obtain ⟨y, hy, hyi, hyb, hyp⟩ := h
    obtain ⟨s, j⟩ := x
    unfold clipByOthers
    rcases List.mem_cons.1 hy with rfl | hy'
    · simp only at hyi hyb hyp
      rw [if_neg (by rw [hyb]; intro h; rcases h with h | h; exact hyi h.symm; cases h), hyp]
      have : clipFront (⟨⟨0, 0, 0⟩, 0⟩ : Plane K) eps false w = none := by
        unfold clipFront
        rw [if_neg (by simp)]
        have hf : countSide (⟨⟨0, 0, 0⟩, 0⟩ : Plane K) eps w .front = 0 := by
          unfold countSide
          rw [List.length_eq_zero_iff, List.filter_eq_nil_iff]
          intro p _
          have e : (⟨⟨0, 0, 0⟩, 0⟩ : Plane K).distTo p = 0 := by simp [Plane.distTo, dot]
          rw [e]
          unfold sideOf
          rw [if_neg (not_lt.2 heps)]
          split <;> simp
        rw [if_pos hf]
      rw [this]
    · have ih' := ih ⟨y, hy', hyi, hyb, hyp⟩
      split
      · exact ih' w
      · split
        · rfl
        · exact ih' _

/-- A brush that has two bevels, and so also a brush with more, is lost from the clipping hulls if the option `-scale` is
used: no side of it has a polygon, `CreateBrushWindings` fails, and `LoadBrush` gives up the brush. `AddBrushBevels` leaves
the three points of a bevel at 0. -/
theorem scaled_bevels_lose_brush {C : Type} {env : Env K} (hn : Normalizes env) (henv : Hulls.Env K)
    (hst : henv.store ⟨⟨0, 0, 0⟩, 0⟩ = ⟨⟨0, 0, 0⟩, 0⟩) (hne : henv.noExpand 0 = false) (hull : Bounds K)
    (o : Option (Vec K)) (old : Bool) {s : K} (hs : s ≠ 1) {fs : List (Face K)}
    {i j : Nat} (hij : i ≠ j) {f g : Face K} (hi : fs[i]? = some f) (hj : fs[j]? = some g)
    (hf : f.p0 = ⟨0, 0, 0⟩ ∧ f.p1 = ⟨0, 0, 0⟩ ∧ f.p2 = ⟨0, 0, 0⟩) (hg : g.p0 = ⟨0, 0, 0⟩ ∧ g.p1 = ⟨0, 0, 0⟩ ∧ g.p2 = ⟨0, 0, 0⟩)
    (benv : BrushBsp.Env K C) (hh : benv.worldextent ≤ benv.huge)
    (hpl : ∀ n, benv.planes (flipNum n) = Hulls.opposite (benv.planes n)) {eps : K} (heps : 0 ≤ eps) (b : Brush K C)
    (hb : b.sides.map (fun s => (benv.planes s.planenum, s.bevel)) =
      (Hulls.hullSides henv (some hull) (fs.map fun f => toHull (finishFace env o old s f))).map fun s => (s.plane, s.bevel)) :
    ∃ b', createWindings benv eps b = .ok (false, b') ∧ ∀ s ∈ b'.sides, s.w = [] := by
  have key : ∀ (k : Nat) (f : Face K), fs[k]? = some f → f.p0 = ⟨0, 0, 0⟩ ∧ f.p1 = ⟨0, 0, 0⟩ ∧ f.p2 = ⟨0, 0, 0⟩ →
      ∃ sd, b.sides[k]? = some sd ∧ sd.bevel = false ∧ benv.planes (flipNum sd.planenum) = ⟨⟨0, 0, 0⟩, 0⟩ := by
    intro k f hk h0
    have e := congrArg (fun l => l[k]?) hb
    have hpf := bevel_plane hn (o := o) (old := old) hs h0.1 h0.2.1 h0.2.2
    have hfilter : ∀ l : List (Hulls.Face K), (l.filter fun f => !(false && f.bevel)) = l := by
      intro l; simp
    simp only [Hulls.hullSides, Hulls.takeSides, hfilter, List.getElem?_map, hk, Option.map_some] at e
    cases h : b.sides[k]? with
    | none => rw [h] at e; cases e
    | some sd =>
      rw [h] at e
      simp only [Option.map_some, Option.some.injEq, Prod.mk.injEq, Hulls.moveSide, toHull, hne, Bool.false_eq_true,
        if_false, hpf] at e
      refine ⟨sd, rfl, e.2, ?_⟩
      rw [hpl, e.1]
      have ez : (⟨⟨0, 0, 0⟩, 0 + dot (Hulls.corner hull ⟨0, 0, 0⟩) ⟨0, 0, 0⟩⟩ : Plane K) = ⟨⟨0, 0, 0⟩, 0⟩ := by
        simp [dot]
      rw [ez, hst]
      simp [Hulls.opposite]
  obtain ⟨sf, hsf, bf, pf⟩ := key i f hi hf
  obtain ⟨sg, hsg, bg, pg⟩ := key j g hj hg
  have memf : (sf, i) ∈ b.sides.zipIdx := List.mem_zipIdx_iff_getElem?.2 (by simpa using hsf)
  have memg : (sg, j) ∈ b.sides.zipIdx := List.mem_zipIdx_iff_getElem?.2 (by simpa using hsg)
  have all : ∀ x : BrushBsp.Side K × Nat, ∀ w, clipByOthers benv eps x.2 b.sides.zipIdx w = none := by
    intro x
    apply clip_zero benv heps
    by_cases h : i = x.2
    · exact ⟨_, memg, fun h' => hij (h.trans h'.symm), bg, pg⟩
    · exact ⟨_, memf, h, bf, pf⟩
  have hs' : ∀ l : List (BrushBsp.Side K × Nat), ∃ r, sideWindings benv eps b.sides.zipIdx l = .ok r ∧ ∀ s ∈ r, s.w = [] := by
    intro l
    induction l with
    | nil => exact ⟨[], rfl, by simp⟩
    | cons x l ih =>
      obtain ⟨r, h1, h2⟩ := ih
      refine ⟨{ x.1 with w := [] } :: r, ?_, ?_⟩
      · unfold sideWindings sideWinding
        rw [all x, h1]
        rfl
      · intro s hs
        rcases List.mem_cons.1 hs with rfl | hs
        · rfl
        · exact h2 s hs
  obtain ⟨r, h1, h2⟩ := hs' b.sides.zipIdx
  have hpts : points r = [] := by
    unfold points
    rw [List.flatMap_eq_nil_iff]
    exact h2
  refine ⟨{ b with sides := r, bounds := boundsOf benv.huge r }, ?_, h2⟩
  have hbad : boundsOk benv.worldextent (boundsOf benv.huge r) = false := by
    unfold boundsOf
    rw [hpts]
    have : -benv.huge ≤ -benv.worldextent := neg_le_neg hh
    simp [boundsOk, this]
  unfold createWindings
  rw [h1]
  simp only [Outcome.ok_bind, hbad]

/-! A concrete case: a box, an environment with exact turns by 90 degrees. -/

/-- Vectors keep their length; the cosine and sine are those of 0 and 90. -/
def exEnv : Env ℚ := ⟨id, fun a => if a = 90 then 0 else 1, fun a => if a = 90 then 1 else 0⟩

theorem exEnv_ok : Normalizes exEnv ∧ Circular exEnv := by
  refine ⟨⟨rfl, ?_⟩, ?_⟩
  · intro v _
    exact ⟨1, by norm_num, by simp [exEnv]⟩
  · intro a
    unfold exEnv
    by_cases h : a = 90 <;> simp [h]

/-- The face through three points. -/
def exFace (p0 p1 p2 : Vec ℚ) : Face ℚ :=
  setPts exEnv ⟨p0, p1, p2, ⟨⟨0, 0, 0⟩, 0⟩, ⟨⟨1, 0, 0⟩, 5⟩, ⟨⟨0, -1, 0⟩, 7⟩, false⟩ p0 p1 p2

/-- The box from (1, 0, 0) to (3, 1, 1). -/
def exBox : List (Face ℚ) :=
  [exFace ⟨1, 1, 1⟩ ⟨1, 0, 1⟩ ⟨1, 0, 0⟩, exFace ⟨3, 0, 1⟩ ⟨3, 1, 1⟩ ⟨3, 1, 0⟩, exFace ⟨1, 0, 1⟩ ⟨3, 0, 1⟩ ⟨3, 0, 0⟩,
   exFace ⟨3, 1, 1⟩ ⟨1, 1, 1⟩ ⟨1, 1, 0⟩, exFace ⟨3, 0, 0⟩ ⟨3, 1, 0⟩ ⟨1, 1, 0⟩, exFace ⟨3, 1, 1⟩ ⟨3, 0, 1⟩ ⟨1, 0, 1⟩]

/-- The keys: 100 to the right, yaw 90, twice as large. -/
def exKeys : Keys ℚ := ⟨⟨100, 0, 0⟩, ⟨0, 0, 0⟩, 90, 1, ⟨2, 0, 0⟩⟩

/-- The hypotheses of `external_map_placed` hold, with a point inside and where it goes. -/
example : (∀ f ∈ exBox, Proper exEnv f) ∧ ScaleFor 1 exKeys.scale ⟨2, 2, 2⟩ ∧
    AnglesFor (1 / 100000) exKeys.angles exKeys.angle ⟨0, 90, 0⟩ ∧ In exBox ⟨2, 1 / 2, 1 / 2⟩ ∧ ¬ In exBox ⟨4, 1 / 2, 1 / 2⟩ ∧
    placed exEnv ⟨2, 2, 2⟩ ⟨0, 90, 0⟩ exKeys.origin ⟨2, 1 / 2, 1 / 2⟩ = ⟨99, 4, 1⟩ ∧
    In (exBox.map (placeFace exEnv (1 / 100000) exKeys)) ⟨99, 4, 1⟩ := by
  unfold Proper ScaleFor AnglesFor In spread
  decide +kernel

/-- A mirrored box has no points. -/
example : ∀ q, ¬ In (exBox.map (placeFace exEnv (1 / 100000) { exKeys with scaleCount := 3, scale := ⟨-1, 1, 1⟩ })) q := by
  intro q hq
  have hall : ∀ b ∈ [exBox], ∀ f ∈ b, Proper exEnv f := by
    unfold Proper spread
    decide +kernel
  obtain ⟨p, rfl⟩ := placed_onto exEnv_ok.2 (sc := ⟨-1, 1, 1⟩) (by norm_num) ⟨0, 90, 0⟩ ⟨100, 0, 0⟩ q
  have h := (mirrored_inside_out exEnv_ok.1 exEnv_ok.2 (eps := 1 / 100000)
    (k := { exKeys with scaleCount := 3, scale := ⟨-1, 1, 1⟩ }) (sc := ⟨-1, 1, 1⟩) (angles := ⟨0, 90, 0⟩)
    (by unfold ScaleFor; decide +kernel) (by unfold AnglesFor; decide +kernel) (by norm_num) hall 0 exBox _ rfl rfl p).1 hq
  have h0 := h (exBox[0]) (by simp [exBox])
  have h1 := h (exBox[1]) (by simp [exBox])
  simp [exBox, exFace, setPts, exEnv, Plane.distTo, dot, sub, cross] at h0 h1
  linarith

/-- With an origin and twice the size: the point of the map at which the entity has its origin should come to 0 and does
not. -/
example : In (exBox.map (finishFace exEnv (some ⟨2, 1 / 2, 1 / 2⟩) false 1)) ⟨0, 0, 0⟩ ∧
    ¬ In (exBox.map (finishFace exEnv (some ⟨2, 1 / 2, 1 / 2⟩) false 2)) ⟨0, 0, 0⟩ := by
  unfold In
  decide +kernel

/-- A brush with two bevels, as the hypotheses of `scaled_bevels_lose_brush` ask for: the box with two edge bevels. -/
def exBevelled : List (Face ℚ) :=
  exBox ++ [⟨⟨0, 0, 0⟩, ⟨0, 0, 0⟩, ⟨0, 0, 0⟩, ⟨⟨3 / 5, 4 / 5, 0⟩, 13 / 5⟩, ⟨⟨1, 0, 0⟩, 0⟩, ⟨⟨0, 1, 0⟩, 0⟩, true⟩,
    ⟨⟨0, 0, 0⟩, ⟨0, 0, 0⟩, ⟨0, 0, 0⟩, ⟨⟨3 / 5, 0, 4 / 5⟩, 13 / 5⟩, ⟨⟨1, 0, 0⟩, 0⟩, ⟨⟨0, 1, 0⟩, 0⟩, true⟩]

def exHull : Bounds ℚ := ⟨⟨-16, -16, -24⟩, ⟨16, 16, 32⟩⟩

def exHullEnv : Hulls.Env ℚ :=
  ⟨fromPlane id 100, 1000, 1 / 10000, 1 / 1000000, fun v => (v, 1), id, fun _ _ => false, id, fun _ => false⟩

def exSides (s : ℚ) : List (Hulls.Side ℚ) :=
  Hulls.hullSides exHullEnv (some exHull) (exBevelled.map fun f => toHull (finishFace exEnv none false s f))

def exBspEnv (s : ℚ) : BrushBsp.Env ℚ Unit where
  planes n := let p := ((exSides s)[n / 2]?.map fun s => s.plane).getD ⟨⟨1, 0, 0⟩, 0⟩
    if n % 2 = 0 then p else Hulls.opposite p
  base := fromPlane id 100
  area := fun _ => 1
  worldextent := 1000
  microvolume := 0
  huge := 2000
  isDetail := fun _ => false
  empty := ()
  combine := fun _ _ => ()
  metric := fun _ _ => 0
  midsplit := fun _ _ => false

def exBrush (s : ℚ) : Brush ℚ Unit :=
  ⟨(exSides s).zipIdx.map fun x => ⟨2 * x.2, [], false, x.1.bevel, true, false, false⟩, ⟨⟨0, 0, 0⟩, ⟨0, 0, 0⟩⟩, (), 0⟩

/-- At the scale 2 the brush is lost, at the scale 1 it is not. -/
example : (∃ b', createWindings (exBspEnv 2) (1 / 10000) (exBrush 2) = .ok (false, b')) ∧
    ((createWindings (exBspEnv 1) (1 / 10000) (exBrush 1)).bind fun r => .ok r.1) = .ok true := by
  constructor
  · obtain ⟨b', h, _⟩ := scaled_bevels_lose_brush (C := Unit) (fs := exBevelled) (i := 6) (j := 7) exEnv_ok.1 exHullEnv rfl rfl
      exHull none false (s := 2) (by norm_num) (by decide) rfl rfl ⟨rfl, rfl, rfl⟩ ⟨rfl, rfl, rfl⟩ (exBspEnv 2)
      (by norm_num [exBspEnv]) (by
        intro n
        unfold exBspEnv
        simp only
        rcases Nat.mod_two_eq_zero_or_one n with h | h
        · have e : flipNum n = n + 1 := by unfold flipNum; rw [if_pos h]
          rw [e, if_neg (by omega), if_pos h, show (n + 1) / 2 = n / 2 by omega]
        · have e : flipNum n = n - 1 := by unfold flipNum; rw [if_neg (by omega)]
          rw [e, if_pos (by omega), if_neg (by omega), show (n - 1) / 2 = n / 2 by omega]
          simp [Hulls.opposite]) (eps := 1 / 10000) (by norm_num) (exBrush 2) (by decide +kernel)
    exact ⟨b', h⟩
  · decide +kernel

end Verif.Place
