import Verif.TexDef.Frac
import Verif.TexDef.Real

/-!
C146: what the texture definitions of a map file mean. C147: the option `-convert` keeps the texturing.
-/

namespace Verif.TexDef

open Geom TexDef.Spec

variable {K : Type} [Field K] [LinearOrder K] [IsStrictOrderedRing K]

/-- C146: a definition of the editor of Quake gives the texture coordinates of that editor, for every point. -/
theorem quakeEd_meaning (env : Env K) (n : Vec K) (e : Ed K) (p : Vec K) : (quakeEd env n e).uvs p = edUV env n e p :=
  quakeEd_uv env n e p

/-- A wall that faces along y, scale 2 and 1, turned by a quarter. -/
example : (quakeEd (⟨false, fun _ => 0, fun _ => 1, fun _ _ => 0, fun _ _ => 0, fun _ => 0, id, fun _ => none⟩ : Env Rat)
    ⟨0, -1, 0⟩ ⟨(5, 7), 90, (2, 0)⟩).uvs ⟨10, 20, 30⟩ = (20, 17) := by
  rw [quakeEd_meaning]
  decide +kernel

omit [LinearOrder K] [IsStrictOrderedRing K] in
/-- C146: a definition of Valve's editor: along each axis, the distance from the origin divided by the scale, and the shift. -/
theorem valve_meaning (r : ValveRow K × ValveRow K) (p : Vec K) :
    (valve r).uvs p = (dot r.1.axis p / r.1.scale + r.1.shift, dot r.2.axis p / r.2.scale + r.2.shift) := by
  simp only [valve, valveRow, Tex.uvs, dot, Prod.mk.injEq]
  constructor <;> ring

example : (valve (⟨⟨0, 1, 0⟩, 3, 2⟩, ⟨⟨0, 0, -1⟩, 4, 1 / 2⟩) : Tex Rat).uvs ⟨10, 20, 30⟩ = (13, -56) := by
  rw [valve_meaning]
  decide +kernel

/-- C146: the definitions of QuArK put the texture onto the three points of the face: the first is its corner, and one
of the others is 128 along s and the other one 128 against t. Across the face, the coordinates do not change. -/
theorem quark_meaning {eps : K} (second : Bool) {p0 p1 p2 : Vec K} (he : 0 < eps)
    (hd : eps * (128 * 128 * (128 * 128)) ≤ dot (Place.sub p1 p0) (Place.sub p1 p0) * dot (Place.sub p2 p0) (Place.sub p2 p0) -
      dot (Place.sub p1 p0) (Place.sub p2 p0) * dot (Place.sub p1 p0) (Place.sub p2 p0)) :
    let x := quark eps second p0 p1 p2
    x.uvs p0 = (0, 0) ∧ x.uvs (if second then p1 else p2) = (128, 0) ∧ x.uvs (if second then p2 else p1) = (0, -128) ∧
      ∀ (p : Vec K) (k : K), x.uvs (Place.add p (let n := BrushBsp.cross (Place.sub p1 p0) (Place.sub p2 p0); ⟨k * n.x, k * n.y, k * n.z⟩)) =
        x.uvs p := by
  intro x
  obtain ⟨a, b, ha, hb, hd', hsc⟩ : ∃ a b : Vec K, (a = if second then Place.sub p1 p0 else Place.sub p2 p0) ∧
      (b = if second then Place.sub p2 p0 else Place.sub p1 p0) ∧
      eps * (128 * 128 * (128 * 128)) ≤ dot a a * dot b b - dot a b * dot a b ∧
      ∃ σ : K, BrushBsp.cross (Place.sub p1 p0) (Place.sub p2 p0) =
        ⟨σ * (BrushBsp.cross a b).x, σ * (BrushBsp.cross a b).y, σ * (BrushBsp.cross a b).z⟩ := by
    cases second
    · refine ⟨_, _, rfl, rfl, ?_, -1, ?_⟩
      · simp only [Bool.false_eq_true, if_false]
        convert hd using 1
        simp only [dot]
        ring
      · simp only [Bool.false_eq_true, if_false, BrushBsp.cross, Vec.mk.injEq]
        refine ⟨?_, ?_, ?_⟩ <;> ring
    · refine ⟨_, _, rfl, rfl, hd, 1, ?_⟩
      simp only [if_true, one_mul]
  obtain ⟨hne, huv⟩ := quark_uv he second ha hb hd'
  obtain ⟨d1, d2, d3, d4⟩ := rows_dual hne
  obtain ⟨f1, f2⟩ := rows_flat (small a) (small b)
  have sm : ∀ s v : Vec K, dot s v = 128 * dot s (small v) := by
    intro s v
    simp only [dot, small]
    ring
  have sc : ∀ s : Vec K, dot s (BrushBsp.cross (small a) (small b)) = 0 → dot s (BrushBsp.cross a b) = 0 := by
    intro s h
    have e : dot s (BrushBsp.cross a b) = 128 * 128 * dot s (BrushBsp.cross (small a) (small b)) := by
      simp only [dot, small, BrushBsp.cross]
      ring
    rw [e, h, mul_zero]
  have ea : Place.sub (if second then p1 else p2) p0 = a := by rw [ha]; cases second <;> rfl
  have eb : Place.sub (if second then p2 else p1) p0 = b := by rw [hb]; cases second <;> rfl
  refine ⟨?_, ?_, ?_, ?_⟩
  · rw [huv]
    simp only [dot, Place.sub, Prod.mk.injEq]
    constructor <;> ring
  · rw [huv, ea, sm _ a, sm _ a, d1, d3]
    norm_num
  · rw [huv, eb, sm _ b, sm _ b, d2, d4]
    norm_num
  · intro p k
    obtain ⟨σ, hσ⟩ := hsc
    have g : ∀ s : Vec K, dot s (BrushBsp.cross a b) = 0 →
        dot s (Place.sub (Place.add p ⟨k * (σ * (BrushBsp.cross a b).x), k * (σ * (BrushBsp.cross a b).y), k * (σ * (BrushBsp.cross a b).z)⟩) p0) =
          dot s (Place.sub p p0) := by
      intro s h
      generalize BrushBsp.cross a b = w at h
      simp only [dot, Place.sub, Place.add] at h ⊢
      linear_combination k * σ * h
    rw [huv, huv, hσ]
    simp only
    rw [g _ (sc _ f1), g _ (sc _ f2)]

/-- A slanted face. -/
example : (quark (1 / 1000000) false ⟨1, 2, 3⟩ ⟨1, 66, 3⟩ ⟨33, 2, 35⟩ : Tex Rat).uvs ⟨33, 2, 35⟩ = (128, 0) :=
  (quark_meaning (eps := 1 / 1000000) false (p0 := ⟨1, 2, 3⟩) (p1 := ⟨1, 66, 3⟩) (p2 := ⟨33, 2, 35⟩) (by norm_num)
    (by simp only [dot, Place.sub]; norm_num)).2.1

/-- C146: brush primitives: `X` is horizontal, `Y` points down, both are of length 1 and lie in the face, `X` to the right
and `Y` below as seen from the front. The two rows of the definition, with `w` and `h` pixels for 1, are the coordinates. -/
theorem primitives_meaning {env : Env K} (hm : Maths env) {eps : K} {n : Vec K} (hc : clean eps n = n) (hn : dot n n = 1) :
    ∃ X Y : Vec K, X.z = 0 ∧ Y.z ≤ 0 ∧ dot X X = 1 ∧ dot Y Y = 1 ∧ dot X Y = 0 ∧ dot X n = 0 ∧ dot Y n = 0 ∧
      BrushBsp.cross Y X = n ∧
      ∀ (m : Prim K) (w h : K) (p : Vec K), (primitives env eps m n w h).uvs p =
        (w * (m.s.x * dot X p + m.s.y * dot Y p + m.s.z), h * (m.t.x * dot X p + m.t.y * dot Y p + m.t.z)) := by
  obtain ⟨c, s, h, h1, h2, h3, h4, h5, h6⟩ := axisBase_eq hm hc hn
  obtain ⟨nx, ny, nz⟩ := n
  simp only at h2 h4 h5 h6
  refine ⟨⟨-s, c, 0⟩, ⟨nz * c, nz * s, -h⟩, rfl, by simpa using h3, ?_, ?_, ?_, ?_, ?_, ?_, ?_⟩
  · simp only [dot]
    linear_combination h1
  · simp only [dot]
    linear_combination nz * nz * h1 + h2
  · simp only [dot]
    ring
  · simp only [dot, h4, h5]
    ring
  · simp only [dot, h4, h5]
    linear_combination nz * h * h1
  · simp only [BrushBsp.cross, Vec.mk.injEq]
    refine ⟨?_, ?_, ?_⟩
    · linear_combination -h4
    · linear_combination -h5
    · linear_combination nz * h1
  · intro m w hh p
    unfold primitives
    rw [h6]
    simp only [Tex.uvs, dot, Prod.mk.injEq]
    constructor <;> ring

example :=
  primitives_meaning (maths_real false) (eps := 1 / 1000000) (n := ⟨3 / 5, 0, 4 / 5⟩) (by unfold clean; norm_num)
    (by simp only [dot]; norm_num)

omit [IsStrictOrderedRing K] in
/-- C147: converting to the format of Valve's editor keeps the texture coordinates of every point, unless a row is 0. -/
theorem convert_valve {env : Env K} (hm : Maths env) {x : Tex K} (hs : dot x.s.v x.s.v ≠ 0) (ht : dot x.t.v x.t.v ≠ 0) (p : Vec K) :
    (valve (toValve env x)).uvs p = x.uvs p := by
  have row : ∀ r : Place.Row K, dot r.v r.v ≠ 0 → valveRow (toValveRow env r) = r := by
    intro r hr
    have hl : env.len r.v ≠ 0 := by
      intro h
      apply hr
      rw [← hm.len_sq, h, mul_zero]
    obtain ⟨⟨a, b, c⟩, d⟩ := r
    simp only at hl
    unfold valveRow toValveRow
    simp only [if_pos hl, Place.Row.mk.injEq, Vec.mk.injEq, and_true]
    refine ⟨?_, ?_, ?_⟩ <;> field_simp
  unfold valve toValve
  simp only [row x.s hs, row x.t ht]

example (p : Vec ℝ) : (valve (toValve (realEnv false) ⟨⟨⟨1, 2, 3⟩, 4⟩, ⟨⟨0, 0, -2⟩, 5⟩⟩)).uvs p = Tex.uvs ⟨⟨⟨1, 2, 3⟩, 4⟩, ⟨⟨0, 0, -2⟩, 5⟩⟩ p :=
  convert_valve (maths_real false) (by simp only [dot]; norm_num) (by simp only [dot]; norm_num) p

/-- C147: converting to brush primitives keeps the texture coordinates of every point of the face. -/
theorem convert_primitives {env : Env K} (hm : Maths env) {eps : K} {pl : Plane K} (hc : clean eps pl.normal = pl.normal)
    (hn : dot pl.normal pl.normal = 1) {w h : K} (hw : w ≠ 0) (hh : h ≠ 0) (x : Tex K) {p : Vec K}
    (hp : dot pl.normal p = pl.dist) :
    (primitives env eps (toPrimitives env eps pl w h x) pl.normal w h).uvs p = x.uvs p := by
  obtain ⟨c, s, k, h1, h2, -, h4, h5, h6⟩ := axisBase_eq hm hc hn
  obtain ⟨⟨nx, ny, nz⟩, d⟩ := pl
  obtain ⟨px, py, pz⟩ := p
  simp only at h2 h4 h5 h6 hp hc hn
  subst h4 h5
  simp only [dot] at hp
  have gx : (-s * px + c * py) * -s + (nz * c * px + nz * s * py - k * pz) * (nz * c) + d * (k * c) = px := by
    linear_combination px * h1 + (-(k * c)) * hp + (c * c * px + c * s * py) * h2
  have gy : (-s * px + c * py) * c + (nz * c * px + nz * s * py - k * pz) * (nz * s) + d * (k * s) = py := by
    linear_combination py * h1 + (-(k * s)) * hp + (c * s * px + s * s * py) * h2
  have gz : (nz * c * px + nz * s * py - k * pz) * -k + d * nz = pz := by
    linear_combination (-nz) * hp + pz * h2
  unfold primitives toPrimitives
  simp only [h6]
  simp only [Tex.uvs, Place.add, Prod.mk.injEq]
  generalize x.s.v.x = a1 at *
  generalize x.s.v.y = a2 at *
  generalize x.s.v.z = a3 at *
  generalize x.s.d = a4 at *
  generalize x.t.v.x = b1 at *
  generalize x.t.v.y = b2 at *
  generalize x.t.v.z = b3 at *
  generalize x.t.d = b4 at *
  constructor
  · field_simp
    linear_combination a1 * gx + a2 * gy + a3 * gz
  · field_simp
    linear_combination b1 * gx + b2 * gy + b3 * gz

example (x : Tex ℝ) : (primitives (realEnv false) (1 / 1000000)
    (toPrimitives (realEnv false) (1 / 1000000) ⟨⟨3 / 5, 0, 4 / 5⟩, 10⟩ 64 32 x) ⟨3 / 5, 0, 4 / 5⟩ 64 32).uvs ⟨10, 7, 5⟩ = x.uvs ⟨10, 7, 5⟩ :=
  convert_primitives (maths_real false) (pl := ⟨⟨3 / 5, 0, 4 / 5⟩, 10⟩) (by unfold clean; norm_num)
    (by simp only [dot]; norm_num) (by norm_num) (by norm_num) x (by simp only [dot]; norm_num)

/-- C147: converting to the format of the editor of Quake, when the texturing of the face is one which that format has
(which is the one of `e`): the size of the texture being unknown, the texture coordinates of a point of the face change by
at most a thousandth of its distance to the first point of the face, and not at all unless a texture is stretched more than
a thousand times. -/
theorem convert_quake {env : Env K} (hm : Maths env) {n p0 p1 p2 : Vec K} (hn : n ≠ ⟨0, 0, 0⟩)
    (hc : Corners n p0 p1 p2) {x : Tex K} {e : Ed K} (hx : ∀ p, OnFace n p0 p → x.uvs p = edUV env n e p) :
    ∃ e', toQuakeEd env n none x p0 p1 p2 = .ok e' ∧
      ∀ p, OnFace n p0 p →
        let f := flat env.old n p
        let f0 := flat env.old n p0
        |((quakeEd env n e').uvs p).1 - (x.uvs p).1| ≤ 1 / 1000 * (|f.1 - f0.1| + |f.2 - f0.2|) ∧
        |((quakeEd env n e').uvs p).2 - (x.uvs p).2| ≤ 1 / 1000 * (|f.1 - f0.1| + |f.2 - f0.2|) ∧
        (|e.scale.1| ≤ 1000 → |e.scale.2| ≤ 1000 → (quakeEd env n e').uvs p = x.uvs p) := by
  have hp0 : OnFace n p0 p0 := rfl
  have hm0 := planeToUV_eq (env := env) hn hc (hx _ hp0) (hx _ hc.1) (hx _ hc.2.1)
  obtain ⟨r, hr, hex, c1, c2, c3, c4⟩ := reverse_close hm n e (0, 0)
  have bound : ∀ u v a b : K, |u| < 1 / 1000 → |v| < 1 / 1000 → |u * a + v * b| ≤ 1 / 1000 * (|a| + |b|) := by
    intro u v a b hu hv
    have h1 := abs_add_le (u * a) (v * b)
    rw [abs_mul, abs_mul] at h1
    have h2 := mul_le_mul_of_nonneg_right (le_of_lt hu) (abs_nonneg a)
    have h3 := mul_le_mul_of_nonneg_right (le_of_lt hv) (abs_nonneg b)
    linarith
  refine ⟨⟨((x.uvs p0).1 - ((quakeEdNew env n ⟨(0, 0), r.1, (r.2.1, r.2.2)⟩).uvs p0).1,
    (x.uvs p0).2 - ((quakeEdNew env n ⟨(0, 0), r.1, (r.2.1, r.2.2)⟩).uvs p0).2), r.1, (r.2.1, r.2.2)⟩, ?_, ?_⟩
  · unfold toQuakeEd
    rw [hm0, hr]
    simp only [Outcome.ok_bind, normalizeShift]
  · intro p hp f f0
    have hsane : ∀ k : K, |k| ≤ 1000 → |sane k| ≤ 1000 := by
      intro k hk
      unfold sane
      split
      · exact hk
      · rw [abs_one]
        norm_num
    have hex' := fun a b => hex (hsane e.scale.1 a) (hsane e.scale.2 b)
    have hs : ∀ sh : K × K, edMat env ⟨sh, r.1, (r.2.1, r.2.2)⟩ = edMat env ⟨(0, 0), r.1, (r.2.1, r.2.2)⟩ := fun _ => rfl
    simp only [quakeEd_new, quakeEd_uv]
    rw [hx p hp, hx p0 hp0]
    simp only [edUV_mat, project_eq, hs]
    generalize edMat env ⟨(0, 0), r.1, (r.2.1, r.2.2)⟩ = m' at *
    generalize edMat env e = m at *
    simp only [M2.app]
    have b1 := bound _ _ (f.1 - f0.1) (-(f.2 - f0.2)) c1 c2
    have b2 := bound _ _ (f.1 - f0.1) (-(f.2 - f0.2)) c3 c4
    rw [abs_neg] at b1 b2
    refine ⟨?_, ?_, ?_⟩
    · rw [abs_sub_comm]
      refine le_trans (le_of_eq ?_) b1
      congr 1
      simp only [f, f0]
      ring
    · rw [abs_sub_comm]
      refine le_trans (le_of_eq ?_) b2
      congr 1
      simp only [f, f0]
      ring
    · intro a b
      rw [hex' a b]
      refine Prod.ext ?_ ?_ <;> simp only <;> ring

/-- A floor, the texture of which is shifted, turned, stretched and mirrored. -/
theorem ex_corners : Corners (⟨0, 0, 1⟩ : Vec ℝ) ⟨0, 0, 8⟩ ⟨0, 64, 8⟩ ⟨64, 0, 8⟩ := by
  refine ⟨by simp [OnFace, dot], by simp [OnFace, dot], ?_⟩
  intro h
  rw [Vec.mk.injEq] at h
  have := h.2.2
  simp only [Place.sub, BrushBsp.cross] at this
  norm_num at this

example : ∃ e', toQuakeEd (realEnv false) ⟨0, 0, 1⟩ none (quakeEd (realEnv false) ⟨0, 0, 1⟩ ⟨(-32, 5), 30, (2, -1 / 2)⟩)
    ⟨0, 0, 8⟩ ⟨0, 64, 8⟩ ⟨64, 0, 8⟩ = .ok e' ∧ ∀ p, OnFace ⟨0, 0, 1⟩ ⟨0, 0, 8⟩ p →
      (quakeEd (realEnv false) ⟨0, 0, 1⟩ e').uvs p = (quakeEd (realEnv false) ⟨0, 0, 1⟩ ⟨(-32, 5), 30, (2, -1 / 2)⟩).uvs p := by
  obtain ⟨e', h1, h2⟩ := convert_quake (maths_real false) (n := ⟨0, 0, 1⟩) (by simp) ex_corners
    (x := quakeEd (realEnv false) ⟨0, 0, 1⟩ ⟨(-32, 5), 30, (2, -1 / 2)⟩) (e := ⟨(-32, 5), 30, (2, -1 / 2)⟩) (fun p _ => quakeEd_uv _ _ _ p)
  refine ⟨e', h1, fun p hp => (h2 p hp).2.2 ?_ ?_⟩
  · simp only
    rw [abs_of_nonneg] <;> norm_num
  · simp only
    rw [abs_of_nonpos] <;> norm_num

/-- Such a floor with a given shift: the converted one has the same. -/
theorem ex_shift (a b : ℝ) : ∃ e', toQuakeEd (realEnv false) ⟨0, 0, 1⟩ none (quakeEd (realEnv false) ⟨0, 0, 1⟩ ⟨(a, b), 30, (2, 1)⟩)
    ⟨0, 0, 8⟩ ⟨0, 64, 8⟩ ⟨64, 0, 8⟩ = .ok e' ∧ e'.shift = (a, b) := by
  obtain ⟨e', h1, h2⟩ := convert_quake (maths_real false) (n := ⟨0, 0, 1⟩) (by simp) ex_corners
    (x := quakeEd (realEnv false) ⟨0, 0, 1⟩ ⟨(a, b), 30, (2, 1)⟩) (e := ⟨(a, b), 30, (2, 1)⟩) (fun p _ => quakeEd_uv _ _ _ p)
  refine ⟨e', h1, ?_⟩
  have h3 := (h2 ⟨0, 0, 8⟩ rfl).2.2 (by simp only; rw [abs_of_nonneg] <;> norm_num) (by simp only; rw [abs_of_nonneg] <;> norm_num)
  rw [quakeEd_uv, quakeEd_uv] at h3
  have hf : flat (realEnv false).old (⟨0, 0, 1⟩ : Vec ℝ) ⟨0, 0, 8⟩ = (0, 0) := by norm_num [flat, realEnv]
  simp only [edUV, hf, mul_zero, sub_zero, add_zero, zero_div, zero_add] at h3
  exact h3

omit [IsStrictOrderedRing K] in
/-- What the size of the texture changes. -/
theorem toQuakeEd_size {env : Env K} {n p0 p1 p2 : Vec K} {x : Tex K} {e : Ed K} (h : toQuakeEd env n none x p0 p1 p2 = .ok e)
    (w h' : BitVec 32) :
    toQuakeEd env n (some (w, h')) x p0 p1 p2 =
      (normalizeOne env w e.shift.1 >>= fun a => normalizeOne env h' e.shift.2 >>= fun b => .ok ⟨(a, b), e.rotate, e.scale⟩) := by
  unfold toQuakeEd at h ⊢
  cases hr : reverse env (planeToUV env n x p0 p1 p2) n with
  | ub => rw [hr] at h; cases h
  | error => rw [hr] at h; cases h
  | ok r =>
    rw [hr] at h
    simp only [Outcome.ok_bind, normalizeShift, Outcome.ok.injEq] at h ⊢
    subst h
    simp only
    cases normalizeOne env w ((x.uvs p0).1 - ((quakeEdNew env n ⟨(0, 0), r.1, (r.2.1, r.2.2)⟩).uvs p0).1) with
    | ub => rfl
    | error => rfl
    | ok a =>
      simp only [Outcome.ok_bind]
      cases normalizeOne env h' ((x.uvs p0).2 - ((quakeEdNew env n ⟨(0, 0), r.1, (r.2.1, r.2.2)⟩).uvs p0).2) <;> rfl

/-- C147: when the size of the texture is known, shifts that are not negative are reduced to it, so that the texture,
which repeats, looks the same. -/
theorem convert_quake_wraps {env : Env K} (hf : Floats env) {n p0 p1 p2 : Vec K} {x : Tex K} {e : Ed K}
    (h : toQuakeEd env n none x p0 p1 p2 = .ok e) {w h' : BitVec 32} (hw : w ≠ 0) (hh : h' ≠ 0)
    (h1 : 0 ≤ e.shift.1 ∧ e.shift.1 < 2 ^ 24 ∧ env.fl e.shift.1 = e.shift.1)
    (h2 : 0 ≤ e.shift.2 ∧ e.shift.2 < 2 ^ 24 ∧ env.fl e.shift.2 = e.shift.2) :
    ∃ e', toQuakeEd env n (some (w, h')) x p0 p1 p2 = .ok e' ∧ e'.rotate = e.rotate ∧ e'.scale = e.scale ∧
      0 ≤ e'.shift.1 ∧ e'.shift.1 < (w.toNat : K) ∧ 0 ≤ e'.shift.2 ∧ e'.shift.2 < (h'.toNat : K) ∧
      ∀ p, ∃ i j : Nat, (quakeEd env n e').uvs p =
        (((quakeEd env n e).uvs p).1 - (i : K) * (w.toNat : K), ((quakeEd env n e).uvs p).2 - (j : K) * (h'.toNat : K)) := by
  obtain ⟨a, ha, a0, a1, i, hi⟩ := normalize_pos hf hw h1.1 h1.2.1 h1.2.2
  obtain ⟨b, hb, b0, b1, j, hj⟩ := normalize_pos hf hh h2.1 h2.2.1 h2.2.2
  refine ⟨⟨(a, b), e.rotate, e.scale⟩, ?_, rfl, rfl, a0, a1, b0, b1, fun p => ⟨i, j, ?_⟩⟩
  · rw [toQuakeEd_size h, ha, hb]
    rfl
  · rw [quakeEd_uv, quakeEd_uv]
    simp only [edUV, hi, hj, Prod.mk.injEq]
    constructor <;> ring

example : ∃ e e', toQuakeEd (realEnv false) ⟨0, 0, 1⟩ none (quakeEd (realEnv false) ⟨0, 0, 1⟩ ⟨(100, 5), 30, (2, 1)⟩)
    ⟨0, 0, 8⟩ ⟨0, 64, 8⟩ ⟨64, 0, 8⟩ = .ok e ∧ e.shift = (100, 5) ∧ toQuakeEd (realEnv false) ⟨0, 0, 1⟩ (some (64, 64))
      (quakeEd (realEnv false) ⟨0, 0, 1⟩ ⟨(100, 5), 30, (2, 1)⟩) ⟨0, 0, 8⟩ ⟨0, 64, 8⟩ ⟨64, 0, 8⟩ = .ok e' ∧ e'.shift.1 < 64 := by
  obtain ⟨e, h1, h2⟩ := ex_shift 100 5
  have f1 : ((100 : Nat) : ℝ) = 100 := by norm_num
  have f2 : ((5 : Nat) : ℝ) = 5 := by norm_num
  obtain ⟨e', h3, -, -, -, h4, -⟩ := convert_quake_wraps (floats_real false) h1 (w := 64) (h' := 64) (by decide) (by decide)
    (by rw [h2]; exact ⟨by norm_num, by norm_num, by rw [← f1]; exact (floats_real false).int 100 (by norm_num)⟩)
    (by rw [h2]; exact ⟨by norm_num, by norm_num, by rw [← f2]; exact (floats_real false).int 5 (by norm_num)⟩)
  refine ⟨e, e', h1, h2, h3, ?_⟩
  have : (((64 : BitVec 32).toNat : Nat) : ℝ) = 64 := by rw [show (64 : BitVec 32).toNat = 64 from rfl]; norm_num
  rwa [this] at h4

/-- C147: a shift of -1 or less is lost when the width of the texture is known and a power of 2 up to 128: what is written
is a multiple of the width, so that the texture looks as if it was not shifted at all. -/
theorem negative_shift_lost {env : Env K} (hf : Floats env) {n p0 p1 p2 : Vec K} {x : Tex K} {e e' : Ed K}
    (h : toQuakeEd env n none x p0 p1 p2 = .ok e) {w h' : BitVec 32} (hw : w.toNat ∣ 128)
    (h1 : e.shift.1 ≤ -1) (h2 : -2 ^ 31 < e.shift.1) (h' : toQuakeEd env n (some (w, h')) x p0 p1 p2 = .ok e') (p : Vec K) :
    ∃ z : Int, ((quakeEd env n e').uvs p).1 =
      ((quakeEd env n { e with shift := (0, e.shift.2) }).uvs p).1 + (z : K) * (w.toNat : K) := by
  obtain ⟨a, z, ha, hz⟩ := normalize_neg hf hw h1 h2
  rw [toQuakeEd_size h, ha, Outcome.ok_bind, Outcome.bind_eq_ok] at h'
  obtain ⟨b, -, hb⟩ := h'
  cases hb
  refine ⟨z, ?_⟩
  rw [quakeEd_uv, quakeEd_uv]
  simp only [edUV, hz]
  ring

/-- The corner of the floor has the coordinate -32 in the map, and a multiple of 64 in the converted one. -/
example : ∃ e e', toQuakeEd (realEnv false) ⟨0, 0, 1⟩ none (quakeEd (realEnv false) ⟨0, 0, 1⟩ ⟨(-32, 5), 30, (2, 1)⟩)
    ⟨0, 0, 8⟩ ⟨0, 64, 8⟩ ⟨64, 0, 8⟩ = .ok e ∧ toQuakeEd (realEnv false) ⟨0, 0, 1⟩ (some (64, 64))
      (quakeEd (realEnv false) ⟨0, 0, 1⟩ ⟨(-32, 5), 30, (2, 1)⟩) ⟨0, 0, 8⟩ ⟨0, 64, 8⟩ ⟨64, 0, 8⟩ = .ok e' ∧
    e.shift = (-32, 5) ∧ ∀ p, ∃ z : Int, ((quakeEd (realEnv false) ⟨0, 0, 1⟩ e').uvs p).1 =
      ((quakeEd (realEnv false) ⟨0, 0, 1⟩ { e with shift := (0, e.shift.2) }).uvs p).1 + (z : ℝ) * 64 := by
  obtain ⟨e, h1, h2⟩ := ex_shift (-32) 5
  obtain ⟨a, z, ha, hz⟩ := normalize_neg (floats_real false) (w := 64) (x := -32) (by decide) (by norm_num) (by norm_num)
  have f2 : ((5 : Nat) : ℝ) = 5 := by norm_num
  obtain ⟨b, hb, -⟩ := normalize_pos (floats_real false) (w := 64) (x := 5) (by decide) (by norm_num) (by norm_num)
    (by rw [← f2]; exact (floats_real false).int 5 (by norm_num))
  have h3 := toQuakeEd_size h1 64 64
  rw [h2] at h3
  simp only [ha, hb, Outcome.ok_bind] at h3
  refine ⟨e, _, h1, h3, h2, fun p => ?_⟩
  have := negative_shift_lost (floats_real false) h1 (w := 64) (by decide) (by rw [h2]; norm_num) (by rw [h2]; norm_num) h3 p
  have h64 : (((64 : BitVec 32).toNat : Nat) : ℝ) = 64 := by rw [show (64 : BitVec 32).toNat = 64 from rfl]; norm_num
  rwa [h64] at this

omit [IsStrictOrderedRing K] in
/-- C147: a texture of width 0 is divided by. -/
theorem empty_texture_ub {env : Env K} {n p0 p1 p2 : Vec K} {x : Tex K} {e : Ed K}
    (h : toQuakeEd env n none x p0 p1 p2 = .ok e) (h' : BitVec 32) : toQuakeEd env n (some (0, h')) x p0 p1 p2 = .ub := by
  rw [toQuakeEd_size h]
  rfl

end Verif.TexDef
