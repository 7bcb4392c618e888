import Verif.Hulls.Props
import Verif.Common.Outcome
import Mathlib.Tactic.NormNum
import Mathlib.Data.Rat.Defs

/-!
The theorems of Props.lean for a brush in the shape of a corner: three faces along the axes and a slanted one. Besides, two
cases in which hulls are not what they should be.
-/

namespace Verif.Hulls.Ex

open Geom Geom.Spec BrushBsp BrushBsp.Spec Hulls.Spec

/-- The lengths of vectors are measured along the axes, so that they are fractions. -/
def size (v : Vec ℚ) : ℚ := |v.x| + |v.y| + |v.z|

def upFor (n : Vec ℚ) : Vec ℚ :=
  if n = ⟨2 / 3, 2 / 3, 1 / 3⟩ then ⟨-2 / 3, 1 / 3, 2 / 3⟩ else if n.z = 0 then ⟨0, 0, 1⟩ else ⟨1, 0, 0⟩

/-- Planes are entered as they are. The texinfo 1 is that of faces that are not to be grown. -/
def env : Env ℚ where
  base := fun p => square p (upFor p.normal) 4096
  huge := 100000
  epsilon := 1 / 10000
  angleEpsilon := 1 / 1000000
  normalize := fun v => (⟨v.x / size v, v.y / size v, v.z / size v⟩, size v)
  snap := id
  near := fun p q => decide (p = q)
  store := id
  noExpand := fun t => t = 1

/-- The hull of the player in Quake. -/
def hull : Bounds ℚ := ⟨⟨-16, -16, -32⟩, ⟨16, 16, 24⟩⟩

def face (n : Vec ℚ) (d : ℚ) (t : Nat) : Face ℚ := ⟨⟨n, d⟩, [], false, t⟩

/-- The brush `x ≥ 0, y ≥ 0, z ≥ 0, 2x + 2y + z ≤ 192`; `t` is the texinfo of the first face. -/
def cornerBrush (t : Nat) : List (Face ℚ) :=
  [face ⟨-1, 0, 0⟩ 0 t, face ⟨0, -1, 0⟩ 0 0, face ⟨0, 0, -1⟩ 0 0, face ⟨2 / 3, 2 / 3, 1 / 3⟩ 64 0]

/-- The same with a face above that does not touch it. -/
def spare : List (Face ℚ) := cornerBrush 0 ++ [face ⟨0, 0, 1⟩ 1000 0]

def made (fs : List (Face ℚ)) : List (Face ℚ) :=
  match addBevels env (calculateBounds env fs).2 (calculateBounds env fs).1 with
  | .ok l => l
  | _ => []

theorem inside_iff (t : Nat) {q : Vec ℚ} (h : Spec.Inside (cornerBrush t) q) :
    0 ≤ q.x ∧ 0 ≤ q.y ∧ 0 ≤ q.z ∧ 2 * q.x + 2 * q.y + q.z ≤ 192 := by
  have h1 := h (face ⟨-1, 0, 0⟩ 0 t) (by simp [cornerBrush])
  have h2 := h (face ⟨0, -1, 0⟩ 0 0) (by simp [cornerBrush])
  have h3 := h (face ⟨0, 0, -1⟩ 0 0) (by simp [cornerBrush])
  have h4 := h (face ⟨2 / 3, 2 / 3, 1 / 3⟩ 64 0) (by simp [cornerBrush])
  simp only [face, Plane.distTo, dot] at h1 h2 h3 h4
  refine ⟨?_, ?_, ?_, ?_⟩ <;> linarith

theorem world (t : Nat) {q : Vec ℚ} (h : Spec.Inside (cornerBrush t) q) : dot q q ≤ 4096 * 4096 := by
  obtain ⟨h1, h2, h3, h4⟩ := inside_iff t h
  simp only [dot]
  nlinarith

theorem base_ok {fs : List (Face ℚ)} (h : ∀ f ∈ fs, UnitNormal f.plane ∧ dot (upFor f.plane.normal) (upFor f.plane.normal) = 1 ∧
      dot (upFor f.plane.normal) f.plane.normal = 0) :
    ∀ f ∈ fs, ConvexPoly (env.base f.plane) ∧ (∀ v ∈ env.base f.plane, f.plane.distTo v = 0) ∧
      ∀ q, f.plane.distTo q = 0 → dot q q ≤ 4096 * 4096 → InHull (env.base f.plane) q := by
  intro f hf
  obtain ⟨h1, h2, h3⟩ := h f hf
  exact ⟨square_convex h1 h2 h3, square_on h1 h3, fun q hq hr => square_spans h1 h2 h3 (by norm_num) hq hr⟩

theorem planes_ok (t : Nat) : ∀ f ∈ cornerBrush t, UnitNormal f.plane ∧
    dot (upFor f.plane.normal) (upFor f.plane.normal) = 1 ∧ dot (upFor f.plane.normal) f.plane.normal = 0 := by
  intro f hf
  simp only [cornerBrush, List.mem_cons, List.not_mem_nil, or_false] at hf
  rcases hf with rfl | rfl | rfl | rfl <;> simp only [face, UnitNormal] <;> decide +kernel

theorem all_polygons : ∀ f ∈ (calculateBounds env (cornerBrush 0)).1, f.w ≠ [] := by decide +kernel

theorem core (t : Nat) : ∃ c, ∀ f ∈ cornerBrush t, f.plane.distTo c < 0 := by
  refine ⟨⟨10, 10, 10⟩, ?_⟩
  intro f hf
  simp only [cornerBrush, List.mem_cons, List.not_mem_nil, or_false] at hf
  rcases hf with rfl | rfl | rfl | rfl <;> simp only [face, Plane.distTo, dot] <;> norm_num

/-- The clipping hull of the corner has every place at which the box of the player meets it. -/
example : ∃ faces, addBevels env (calculateBounds env (cornerBrush 0)).2 (calculateBounds env (cornerBrush 0)).1 = .ok faces ∧
    ∀ at_ q, True → Spec.Inside (cornerBrush 0) q → InPlayer hull at_ q →
      ∀ s ∈ hullSides env (some hull) faces, s.plane.distTo at_ ≤ 1 / 10000 + 2 * 0 :=
  clip_hull_covers (W := fun _ => True) (base_ok (planes_ok 0)) (by decide +kernel) (fun f hf => (planes_ok 0 f hf).1)
    (core 0) (fun q => world 0) (fun f hf he => absurd he (all_polygons f hf)) (by decide +kernel) (fun _ _ => trivial)
    (fun p q _ => by simp [env]) (fun p axis d _ _ h => h) (by decide +kernel) hull

/-- There are places to which this applies: next to the slanted face. -/
example : Spec.Inside (cornerBrush 0) ⟨32, 32, 64⟩ ∧ InPlayer hull ⟨44, 44, 80⟩ ⟨32, 32, 64⟩ ∧
    ¬ Spec.Inside (cornerBrush 0) ⟨44, 44, 80⟩ := by
  unfold Spec.Inside InPlayer InBox minus hull
  decide +kernel

theorem sameDir {v : Vec ℚ} (h : v ≠ ⟨0, 0, 0⟩) : SameDir (env.normalize v).1 v := by
  have hs : 0 < size v := by
    have a := abs_nonneg v.x
    have b := abs_nonneg v.y
    have c := abs_nonneg v.z
    rcases lt_or_eq_of_le (show 0 ≤ size v by unfold size; linarith) with h0 | h0
    · exact h0
    · exfalso
      apply h
      unfold size at h0
      have e1 : v.x = 0 := abs_eq_zero.1 (by linarith)
      have e2 : v.y = 0 := abs_eq_zero.1 (by linarith)
      have e3 : v.z = 0 := abs_eq_zero.1 (by linarith)
      cases v
      simp only at e1 e2 e3
      rw [e1, e2, e3]
  refine ⟨1 / size v, by positivity, ?_⟩
  simp only [env, Vec.mk.injEq]
  refine ⟨?_, ?_, ?_⟩ <;> ring

instance (d : Vec ℚ) : Decidable (Slant d) := by unfold Slant; infer_instance

theorem edges_ok : ∀ f ∈ (calculateBounds env (cornerBrush 0)).1, ∀ e ∈ edges f.w, Slant (minus e.1 e.2) →
    1 / 2 ≤ (env.normalize (minus e.1 e.2)).2 ∧ minus e.1 e.2 ≠ ⟨0, 0, 0⟩ ∧
    (∀ axis ∈ [0, 1, 2], ¬ (comp axis (env.normalize (minus e.1 e.2)).1 = -1 ∨ comp axis (env.normalize (minus e.1 e.2)).1 = 1)) ∧
    ∀ axis ∈ [0, 1, 2], ∀ d ∈ [(1 : ℚ), -1],
      env.angleEpsilon ≤ (env.normalize (cross (env.normalize (minus e.1 e.2)).1 (unitVec axis d))).2 ∧
      cross (env.normalize (minus e.1 e.2)).1 (unitVec axis d) ≠ ⟨0, 0, 0⟩ := by decide +kernel

theorem exact_ok : Exact env (calculateBounds env (cornerBrush 0)).1 where
  store _ := rfl
  near p q h := by simpa [env] using h
  eps := by decide +kernel
  edge f hf e he hs := by
    obtain ⟨h1, h2, h3, h4⟩ := edges_ok f hf e he hs
    refine ⟨h1, sameDir h2, ?_, ?_⟩
    · rintro ⟨axis, ha, h⟩
      exact h3 axis (by simp only [List.mem_cons, List.not_mem_nil, or_false]; omega) h
    · intro axis d ha hd
      obtain ⟨a, b⟩ := h4 axis (by simp only [List.mem_cons, List.not_mem_nil, or_false]; omega) d (by simpa using hd)
      exact ⟨a, sameDir b⟩

/-- And it has no others. -/
example : ∃ faces, addBevels env (calculateBounds env (cornerBrush 0)).2 (calculateBounds env (cornerBrush 0)).1 = .ok faces ∧
    ∀ at_, InSides (hullSides env (some hull) faces) at_ → ¬ Parted hull (cornerBrush 0) at_ :=
  clip_hull_tight (base_ok (planes_ok 0)) (by decide +kernel) (fun f hf => (planes_ok 0 f hf).1)
    (core 0) (fun q => world 0) (fun f hf he => absurd he (all_polygons f hf)) (by decide +kernel) exact_ok
    (by
      intro q hq axis ha
      obtain ⟨h1, h2, h3, h4⟩ := inside_iff 0 hq
      rw [abs_le]
      have : env.huge = 100000 := rfl
      rw [this]
      unfold comp
      split
      · constructor <;> linarith
      · split <;> constructor <;> linarith)
    (fun f hf _ => all_polygons f hf) ⟨⟨0, 0, 0⟩, by unfold InBox; decide +kernel⟩

/-- The corner gets three faces along axes and bevels for its three slanted edges. -/
example : (made (cornerBrush 0)).map (fun f => (f.plane.normal, f.plane.dist, f.bevel)) =
    [(⟨-1, 0, 0⟩, 0, false), (⟨1, 0, 0⟩, 96, true), (⟨0, -1, 0⟩, 0, false), (⟨0, 1, 0⟩, 96, true), (⟨0, 0, -1⟩, 0, false),
      (⟨0, 0, 1⟩, 192, true), (⟨2 / 3, 2 / 3, 1 / 3⟩, 64, false), (⟨2 / 3, 0, 1 / 3⟩, 64, true),
      (⟨0, 2 / 3, 1 / 3⟩, 64, true), (⟨1 / 2, 1 / 2, 0⟩, 48, true)] := by decide +kernel

/-- The theorem about the point hull applies to it. -/
example : ∃ faces, addBevels env (calculateBounds env (cornerBrush 0)).2 (cornerBrush 0) = .ok faces ∧
    (hullSides env none faces).Perm ((cornerBrush 0).map fun f => ⟨f.plane, false, f.texinfo⟩) := by
  obtain ⟨faces, h1, _, h2, _⟩ := point_hull_unchanged (env := env) (b := (calculateBounds env (cornerBrush 0)).2)
    (fs := cornerBrush 0) (by decide +kernel) (by decide +kernel) (fun f hf => (planes_ok 0 f hf).1) (fun p axis d _ _ h => h)
  exact ⟨faces, h1, h2⟩

/-- Not so if a face along an axis has no polygon: it keeps the bevel away, and the hull has a place 22 above all places at
which the player meets the brush. -/
theorem redundant_face_enlarges :
    InSides (hullSides env (some hull) (made spare)) ⟨-10, -10, 238⟩ ∧ Parted hull spare ⟨-10, -10, 238⟩ ∧
    ¬ InSides (hullSides env (some hull) (made (cornerBrush 0))) ⟨-10, -10, 238⟩ ∧
    ∀ q, Spec.Inside spare q ↔ Spec.Inside (cornerBrush 0) q := by
  have hiff : ∀ q, Spec.Inside spare q ↔ Spec.Inside (cornerBrush 0) q := by
    intro q
    constructor
    · intro h f hf; exact h f (List.mem_append_left _ hf)
    · intro h f hf
      rcases List.mem_append.1 hf with hf | hf
      · exact h f hf
      · obtain ⟨h1, h2, h3, h4⟩ := inside_iff 0 h
        simp only [List.mem_singleton] at hf
        subst hf
        simp only [face, Plane.distTo, dot]
        linarith
  refine ⟨by unfold InSides; decide +kernel, ⟨⟨0, 0, 1⟩, ?_⟩, by unfold InSides; decide +kernel, hiff⟩
  intro q r hq hr
  obtain ⟨h1, h2, h3, h4⟩ := inside_iff 0 ((hiff q).1 hq)
  obtain ⟨_, _, _, h5⟩ := hr
  simp only [minus, hull] at h5
  simp only [dot]
  linarith

/-- Nor is every place covered if one face is marked not to be grown: the bevels take the mark from the first face, so that
the other faces are not grown there either. The place is 8 above the tip of the brush, at which the box of the player meets
it, and it is beyond the bevel. -/
theorem marked_face_spreads :
    (∀ f ∈ cornerBrush 1, env.noExpand f.texinfo = true → f.plane.normal = ⟨-1, 0, 0⟩) ∧
    Spec.Inside (cornerBrush 1) ⟨0, 0, 192⟩ ∧ InPlayer hull ⟨0, 0, 200⟩ ⟨0, 0, 192⟩ ∧
    ∃ s ∈ hullSides env (some hull) (made (cornerBrush 1)), s.plane.normal = ⟨0, 0, 1⟩ ∧ s.plane.distTo ⟨0, 0, 200⟩ = 8 := by
  unfold Spec.Inside InPlayer InBox minus hull
  decide +kernel

end Verif.Hulls.Ex
