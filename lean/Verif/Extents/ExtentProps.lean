import Mathlib.Algebra.Order.Ring.Rat
import Mathlib.Algebra.Field.Rat
import Mathlib.Data.Rat.Floor
import Mathlib.Tactic.NormNum
import Verif.Extents.Lemmas

/-!
C161: the lightmap of a face covers the face, and lightmap coordinates and points of the plane of the face correspond.
-/

namespace Verif.Extents

open Verif.Geom

section
variable {K : Type} [Field K] [LinearOrder K] [IsStrictOrderedRing K] [FloorRing K]

/-- The extents and the coordinates are the ones an engine computes from the texture vectors, for a scale `shift`. -/
theorem engine_extents {f : Face K} {shift : K} (hs : 0 < shift) {e : Ext K} (h : vanilla f shift = .ok e) :
    ∃ s0 t0, Spec.EngineAxis f.points f.s.at shift s0 e.w ∧ Spec.EngineAxis f.points f.t.at shift t0 e.h ∧
      ∀ p, e.lmCoord p = (f.s.at p / shift - s0, f.t.at p / shift - t0) := by
  obtain ⟨a, b, sp, i, ha, hb, hsp, hi, hw, hh, hl, _, _, _⟩ := vanilla_ok h
  obtain ⟨ca, ea, a1, a2⟩ := axis_ok ha
  obtain ⟨cb, eb, b1, b2⟩ := axis_ok hb
  unfold scaledBounds at ea eb
  cases hba : bounds1 (f.points.map f.s.at) with
  | none => rw [hba] at ea; cases ea
  | some ba =>
    cases hbb : bounds1 (f.points.map f.t.at) with
    | none => rw [hbb] at eb; cases eb
    | some bb =>
      rw [hba] at ea
      rw [hbb] at eb
      injection ea with ea
      injection eb with eb
      refine ⟨a.1, b.1, ⟨ba.1, ba.2, bounds1_range hba, ?_, ?_⟩, ⟨bb.1, bb.2, bounds1_range hbb, ?_, ?_⟩, ?_⟩
      · rw [a1, ← ea]
      · rw [hw, a2, ← ea]
      · rw [b1, ← eb]
      · rw [hh, b2, ← eb]
      · intro p
        unfold Ext.lmCoord
        rw [hl]
        obtain ⟨v0, v1, _, _⟩ := vanilla_app (f := f) (ne_of_gt hs) hi p.x p.y p.z 1
        rw [v0, v1]
        simp only [TexRow.at, mul_one, one_mul]

/-- A face and its lightmap of a scale: the lightmap starts at a whole luxel. -/
theorem vanilla_range {pts : List (Vec K)} {g : Vec K → K} {shift : K} (hs : 0 < shift) {s0 n : Int}
    (h : Spec.EngineAxis pts g shift s0 n) : ∀ p ∈ pts, (0 : K) ≤ g p / shift - s0 ∧ g p / shift - s0 ≤ n := by
  obtain ⟨lo, hi, ⟨_, _, hr⟩, e1, e2⟩ := h
  intro p hp
  obtain ⟨h1, h2⟩ := hr p hp
  have l1 : lo / shift ≤ g p / shift := div_le_div_of_nonneg_right h1 (le_of_lt hs)
  have l2 : g p / shift ≤ hi / shift := div_le_div_of_nonneg_right h2 (le_of_lt hs)
  have f1 := Int.floor_le (lo / shift)
  have f2 := Int.le_ceil (hi / shift)
  rw [e2, e1]
  push_cast
  constructor <;> linarith

/-- Every point of a measured face has lightmap coordinates inside the lightmap. -/
theorem face_covered {f : Face K} {e : Ext K} (h : Spec.Measured f e) {p : Vec K} (hp : Spec.InFace f.points p) :
    0 ≤ (e.lmCoord p).1 ∧ (e.lmCoord p).1 ≤ e.w ∧ 0 ≤ (e.lmCoord p).2 ∧ (e.lmCoord p).2 ≤ e.h := by
  rcases h with ⟨shift, hs, h⟩ | ⟨units, hu, h⟩
  · obtain ⟨s0, t0, es, et, hc⟩ := engine_extents hs h
    have a := face_affine (g := fun p => f.s.at p / shift - s0) (by
      intro t p q
      simp only [TexRow.at]
      ring) (vanilla_range hs es) hp
    have b := face_affine (g := fun p => f.t.at p / shift - t0) (by
      intro t p q
      simp only [TexRow.at]
      ring) (vanilla_range hs et) hp
    rw [hc]
    exact ⟨a.1, a.2, b.1, b.2⟩
  · obtain ⟨_, a, b, sp, ha, hb, _, hw, hh, hl, _, _, _⟩ := decoupled_ok h
    obtain ⟨ca, ea, a1, a2⟩ := axis_ok ha
    obtain ⟨cb, eb, b1, b2⟩ := axis_ok hb
    unfold Ext.lmCoord
    rw [hl]
    obtain ⟨f0, f1, _, _⟩ := frame_app
      ⟨scale (1 / units) (tangents (snapped f.plane.normal)).1, -(a.1 : K)⟩
      ⟨scale (1 / units) (tangents (snapped f.plane.normal)).2, -(b.1 : K)⟩ f.plane p.x p.y p.z 1
    rw [f0, f1, hw, hh, a1, a2, b1, b2]
    generalize hT : scale (1 / units) (tangents (snapped f.plane.normal)).1 = T at *
    generalize hB : scale (1 / units) (tangents (snapped f.plane.normal)).2 = B at *
    have ra := (bounds1_range (g := fun p => dot T p) ea).2.2
    have rb := (bounds1_range (g := fun p => dot B p) eb).2.2
    have ka := face_affine (g := fun p => dot T p) (by
      intro t p q; simp only [dot]; ring) ra hp
    have kb := face_affine (g := fun p => dot B p) (by
      intro t p q; simp only [dot]; ring) rb hp
    simp only [dot] at ka kb
    have g1 := Int.floor_le ca.1
    have g2 := Int.le_ceil ca.2
    have g3 := Int.floor_le cb.1
    have g4 := Int.le_ceil cb.2
    push_cast
    refine ⟨?_, ?_, ?_, ?_⟩ <;> nlinarith

omit [FloorRing K] in
/-- The point for a lightmap coordinate lies on the plane of the face and has this coordinate: for stored extents. -/
theorem stored_on_face {f : Face K} {lw lh : Nat} {rs rt : TexRow K} {e : Ext K} (h : stored f lw lh rs rt = .ok e)
    {s t : K} {p : Vec K} (hp : e.world s t = some p) : Spec.On f.plane p ∧ e.lmCoord p = (s, t) :=
  rep_world (stored_rep h) hp

/-- The point for a lightmap coordinate lies on the plane of the face and has this coordinate. -/
theorem lightmap_on_face {f : Face K} {e : Ext K} (h : Spec.Measured f e) {s t : K} {p : Vec K}
    (hp : e.world s t = some p) : Spec.On f.plane p ∧ e.lmCoord p = (s, t) :=
  rep_world (measured_rep h) hp

/-- The lightmap coordinate of a point of the plane leads back to the point. -/
theorem face_on_lightmap {f : Face K} {e : Ext K} (h : Spec.Measured f e) {p : Vec K} (hp : Spec.On f.plane p)
    {s t : K} (hw : e.world s t ≠ none) : e.world (e.lmCoord p).1 (e.lmCoord p).2 = some p :=
  rep_back (measured_rep h) hp (fun e => hw (world_none.2 e))

/-- With the texture vectors, there are points for lightmap coordinates unless the texture vectors and the normal lie in a
plane, that is, unless the texture is projected along the face. -/
theorem mapping_exists {f : Face K} {shift : K} {e : Ext K} (h : vanilla f shift = .ok e) (s t : K) :
    e.world s t = none ↔ Spec.triple f.s.vec f.t.vec f.plane.normal = 0 := by
  obtain ⟨a, b, sp, i, _, _, _, _, _, _, _, hw, _, _⟩ := vanilla_ok h
  rw [world_none, hw, Option.map_eq_none_iff, texToWorld, inverse_none, worldToTex, frame_det]

/-- All points of the face are within the bounding sphere. -/
theorem face_in_sphere {f : Face K} {e : Ext K}
    (h : Spec.Measured f e ∨ ∃ lw lh s t, stored f lw lh s t = .ok e) {p : Vec K} (hp : Spec.InFace f.points p) :
    Spec.dist2 p e.origin ≤ e.half.x * e.half.x + e.half.y * e.half.y + e.half.z * e.half.z := by
  have hsp : sphere f = some (e.origin, e.half) := by
    rcases h with (⟨shift, hs, h⟩ | ⟨units, hu, h⟩) | ⟨lw, lh, s, t, h⟩
    · obtain ⟨a, b, sp, i, _, _, h1, _, _, _, _, _, h2, h3⟩ := vanilla_ok h
      rw [h2, h3]; exact h1
    · obtain ⟨_, a, b, sp, _, _, h1, _, _, _, _, h2, h3⟩ := decoupled_ok h
      rw [h2, h3]; exact h1
    · obtain ⟨_, _, sp, h1, _, _, _, _, h2, h3⟩ := stored_ok h
      rw [h2, h3]; exact h1
  unfold sphere at hsp
  split at hsp
  · rename_i bx by_ bz ex ey ez
    injection hsp with hsp
    injection hsp with ho hr
    have kx := face_affine (g := fun p : Vec K => p.x) (fun t p q => rfl) (bounds1_range (g := fun p => p.x) ex).2.2 hp
    have ky := face_affine (g := fun p : Vec K => p.y) (fun t p q => rfl) (bounds1_range (g := fun p => p.y) ey).2.2 hp
    have kz := face_affine (g := fun p : Vec K => p.z) (fun t p q => rfl) (bounds1_range (g := fun p => p.z) ez).2.2 hp
    rw [← ho, ← hr]
    unfold Spec.dist2
    simp only at *
    have sq : ∀ a b c : K, a ≤ c → c ≤ b →
        (c - (a + (b - a) * (1 / 2))) * (c - (a + (b - a) * (1 / 2))) ≤ (b - a) * (1 / 2) * ((b - a) * (1 / 2)) := by
      intro a b c h1 h2
      nlinarith [mul_nonneg (sub_nonneg.2 h1) (sub_nonneg.2 h2)]
    linarith [sq _ _ _ kx.1 kx.2, sq _ _ _ ky.1 ky.2, sq _ _ _ kz.1 kz.2]
  · cases hsp

end

/-- A face on the floor, 40 by 20 units, with a texture of the default projection, shifted by 3. -/
def exampleFace : Face ℚ :=
  { points := [⟨0, 0, 8⟩, ⟨0, 20, 8⟩, ⟨40, 20, 8⟩, ⟨40, 0, 8⟩], plane := ⟨⟨0, 0, 1⟩, 8⟩
    s := ⟨⟨1, 0, 0⟩, 3⟩, t := ⟨⟨0, -1, 0⟩, 0⟩ }

/-- The face has a lightmap of 4 by 3 luxels, the matrices exist, and the corner at the origin is at the luxel coordinate
(3/16, 2). -/
example : ∃ e, vanilla exampleFace 16 = .ok e ∧ e.width = .ok 4 ∧ e.height = .ok 3 ∧ e.world 0 0 = some ⟨-3, 32, 8⟩ ∧
    e.lmCoord ⟨0, 0, 8⟩ = (3 / 16, 2) ∧ e.origin = ⟨20, 10, 8⟩ := by
  obtain ⟨e, h, hp⟩ := check_ok (o := vanilla exampleFace 16) (p := fun e => decide (e.width = .ok 4 ∧ e.height = .ok 3 ∧
    e.world 0 0 = some ⟨-3, 32, 8⟩ ∧ e.lmCoord ⟨0, 0, 8⟩ = (3 / 16, 2) ∧ e.origin = ⟨20, 10, 8⟩)) (by decide +kernel)
  exact ⟨e, h, of_decide_eq_true hp⟩

/-- A texture that is projected along the face has no points for lightmap coordinates. -/
example : ∃ e, vanilla { exampleFace with s := ⟨⟨0, 0, 1⟩, 0⟩ } 16 = .ok e ∧ e.world 0 0 = none := by
  obtain ⟨e, h, hp⟩ := check_ok (o := vanilla { exampleFace with s := ⟨⟨0, 0, 1⟩, 0⟩ } 16)
    (p := fun e => decide (e.world 0 0 = none)) (by decide +kernel)
  exact ⟨e, h, of_decide_eq_true hp⟩

end Verif.Extents
