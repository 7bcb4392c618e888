import Verif.Radiosity.BounceProps

/-!
Where the points of surfaces that emit or bounce light are (C195, C197), and cases for the theorems about them.
-/

namespace Verif.Radiosity

open Verif.Geom Verif.SurfLights

variable {K : Type} [Field K] [LinearOrder K]

/-- Removing corners leaves corners. -/
theorem removeColinear_mem (unit : Vec K → Vec K) (vs : List (Vec K)) : ∀ p ∈ removeColinear unit vs, p ∈ vs := by
  intro p hp
  unfold removeColinear at hp
  obtain ⟨c, hc, h⟩ := List.mem_filterMap.1 hp
  split at h
  · cases h
    exact (List.of_mem_zip (List.of_mem_zip hc).1).1
  · cases h

/-- The points of a surface light: one over the middle of the face, moved with its model; with better quality one over
each corner, or over each patch, unless it is in the void. All are lifted off the face by its normal. -/
theorem surface_points [IsStrictOrderedRing K] [FloorRing K] (e : Env K) (f : Surface K) (size : K) (hs : 0 < size)
    (hd : ∀ w, ∃ fuel, dice size fuel w = some (e.patches w))
    (hw : removeColinear e.unit (f.poly.map fun p => vadd p f.offset) ≠ []) :
    let r := surfacePoints e f
    let moved := f.poly.map fun p => vadd p f.offset
    (∃ u, Inside moved u ∧ r.1 = vadd u f.normal) ∧ 0 < r.2.2 ∧ r.2.1.length ≤ r.2.2 ∧
    (e.quality = .low → r.2.1 = [r.1] ∧ r.2.2 = 1) ∧
    (e.quality = .medium → ∀ q ∈ r.2.1, q = r.1 ∨
      ∃ u ∈ moved, e.fix (vadd (vadd u f.normal) (e.unit (vsub r.1 u))) = some q) ∧
    (e.quality = .high → ∀ q ∈ r.2.1, ∃ u, Inside moved u ∧ e.fix (vadd u f.normal) = some q) := by
  have mem := removeColinear_mem e.unit (f.poly.map fun p => vadd p f.offset)
  have hc : ∀ us, us ≠ [] → (∀ x ∈ us, Inside (f.poly.map fun p => vadd p f.offset) x) →
      Inside (f.poly.map fun p => vadd p f.offset) (center us) := fun us hne h => inside_trans h (center_inside us hne)
  have hin : ∀ x ∈ removeColinear e.unit (f.poly.map fun p => vadd p f.offset),
      Inside (f.poly.map fun p => vadd p f.offset) x := fun x hx n d hd => hd x (mem x hx)
  simp only
  unfold surfacePoints
  simp only
  cases hq : e.quality with
  | low =>
    refine ⟨⟨_, hc _ hw hin, rfl⟩, by simp, by simp, fun _ => ⟨rfl, rfl⟩, fun h => (by cases h), fun h => (by cases h)⟩
  | medium =>
    refine ⟨⟨_, hc _ hw hin, rfl⟩, by simp, ?_, fun h => (by cases h), ?_, fun h => (by cases h)⟩
    · simp only [List.length_cons]
      have := List.length_filterMap_le (fun p => e.fix (vadd (vadd p f.normal) (e.unit (vsub (vadd (center (removeColinear
        e.unit (f.poly.map fun p => vadd p f.offset))) f.normal) p))))
        (removeColinear e.unit (f.poly.map fun p => vadd p f.offset))
      omega
    · intro _ q hq
      rcases List.mem_cons.1 hq with h | h
      · exact Or.inl h
      · obtain ⟨u, hu, h⟩ := List.mem_filterMap.1 h
        exact Or.inr ⟨u, mem u hu, h⟩
  | high =>
    refine ⟨⟨_, hc _ hw hin, rfl⟩, ?_, List.length_filterMap_le _ _, fun h => (by cases h), fun h => (by cases h), ?_⟩
    · obtain ⟨fuel, h⟩ := hd (removeColinear e.unit (f.poly.map fun p => vadd p f.offset))
      obtain ⟨x, hx⟩ := List.exists_mem_of_ne_nil _ hw
      obtain ⟨p, hp, -⟩ := patches_keep_corners size fuel _ _ h x hx
      exact List.length_pos_of_mem hp
    · intro _ q hq
      obtain ⟨p, hp, h⟩ := List.mem_filterMap.1 hq
      obtain ⟨fuel, hd⟩ := hd (removeColinear e.unit (f.poly.map fun p => vadd p f.offset))
      obtain ⟨h1, -, h3⟩ := patches_small size hs fuel _ _ hd p hp
      exact ⟨center p, hc p h1 fun x hx => inside_trans hin (h3 x hx), h⟩

/-- The points from which a face bounces light lie over the face as it is in the file, lifted by its normal; there is at
least one, so the assertion never fails. -/
theorem bounce_points_partial [IsStrictOrderedRing K] [FloorRing K] (e : Env K) (f : BFace K) (size : K) (hs : 0 < size)
    (hd : ∀ w, ∃ fuel, dice size fuel w = some (e.patches w)) (hw : removeColinear e.unit f.poly ≠ []) :
    (bouncePoints e f).2 ≠ [] ∧ ∀ q ∈ (bouncePoints e f).2, ∃ u, Inside f.poly u ∧ q = vadd u f.normal := by
  have mem := removeColinear_mem e.unit f.poly
  have hc : ∀ us, us ≠ [] → (∀ x ∈ us, Inside f.poly x) → Inside f.poly (center us) :=
    fun us hne h => inside_trans h (center_inside us hne)
  have hin : ∀ x ∈ removeColinear e.unit f.poly, Inside f.poly x := fun x hx n d hd => hd x (mem x hx)
  unfold bouncePoints
  simp only
  cases hq : e.quality with
  | low =>
    refine ⟨by simp, fun q hq => ?_⟩
    rw [List.mem_singleton] at hq
    exact ⟨_, hc _ hw hin, hq⟩
  | medium =>
    refine ⟨by simp, fun q hq => ?_⟩
    rcases List.mem_cons.1 hq with h | h
    · exact ⟨_, hc _ hw hin, h⟩
    · obtain ⟨u, hu, rfl⟩ := List.mem_map.1 h
      exact ⟨u, hin u hu, rfl⟩
  | high =>
    obtain ⟨fuel, hd⟩ := hd (removeColinear e.unit f.poly)
    constructor
    · obtain ⟨x, hx⟩ := List.exists_mem_of_ne_nil _ hw
      obtain ⟨p, hp, -⟩ := patches_keep_corners size fuel _ _ hd x hx
      intro h
      simp only [List.map_eq_nil_iff] at h
      rw [h] at hp
      cases hp
    · intro q hq
      obtain ⟨p, hp, rfl⟩ := List.mem_map.1 hq
      obtain ⟨h1, -, h3⟩ := patches_small size hs fuel _ _ hd p hp
      exact ⟨center p, hc p h1 fun x hx => inside_trans hin (h3 x hx), rfl⟩

/-! ## Cases -/

/-- The direction of a vector along an axis. -/
def sign (v : Vec ℚ) : Vec ℚ :=
  let one (x : ℚ) : ℚ := if 0 < x then 1 else if x < 0 then -1 else 0
  ⟨one v.x, one v.y, one v.z⟩

/-- A square of 10 by 10. -/
def sq : List (Vec ℚ) := [⟨0, 0, 0⟩, ⟨0, 10, 0⟩, ⟨10, 10, 0⟩, ⟨10, 0, 0⟩]

def env (q : Quality) : Env ℚ := ⟨q, sign, some, fun w => ((dice 16 20 w).getD []), none⟩

/-- A face of Quake II with this flags and value, and a texture of this grey. -/
def panel (grey : ℚ) (value : Int) (offset : Vec ℚ) : Surface ℚ :=
  ⟨true, sq, 100, ⟨0, 0, 1⟩, offset, ⟨grey, grey, grey⟩, some (1, value), none, none, none, none⟩

/-- Non-vacuity of `surface_settings` and `surface_energy_partial`: a white panel of value 300 has one setting, and gives
off 300 times its area. -/
example : ∃ l, surfaceLights (env .high) (panel 255 300 ⟨0, 0, 0⟩) [] = some l ∧ l.points = [⟨5, 5, 1⟩] ∧
    l.styles.map (given 1) = [⟨30000, 30000, 30000⟩] := by
  have h : (surfaceLights (env .high) (panel 255 300 ⟨0, 0, 0⟩) []).map (fun l => (l.points, l.styles.map (given 1)))
      = some ([⟨5, 5, 1⟩], [⟨30000, 30000, 30000⟩]) := by decide +kernel
  obtain ⟨l, hl, h⟩ := Option.map_eq_some_iff.1 h
  simp only [Prod.mk.injEq] at h
  exact ⟨l, hl, h⟩

/-- A dark panel is too dark: with a grey of 51, a fifth, and a value of 1 it gives off a twenty-fifth over its area. -/
theorem dim_surface_too_dark : ∃ (f : Surface ℚ) (l : Vpl ℚ) (s : Source ℚ) (w : Vec ℚ), sources f [] = [s] ∧
    surfaceLights (env .low) f [] = some l ∧ Wanted (env .low) f s w ∧ w = ⟨1 / 5, 1 / 5, 1 / 5⟩ ∧ f.area = 100 ∧
    l.points.length = 1 ∧ l.before = 1 ∧ l.styles.map (given 1) = [⟨4, 4, 4⟩] := by
  have h : (surfaceLights (env .low) (panel 51 1 ⟨0, 0, 0⟩) []).map
      (fun l => (l.points.length, l.before, l.styles.map (given 1))) = some (1, 1, [⟨4, 4, 4⟩]) := by decide +kernel
  obtain ⟨l, hl, h⟩ := Option.map_eq_some_iff.1 h
  simp only [Prod.mk.injEq] at h
  exact ⟨panel 51 1 ⟨0, 0, 0⟩, l, _, _, rfl, hl, (wanted_iff _ _ _ _).2 rfl, by decide +kernel, rfl, h⟩

/-- A panel with a negative value shines: with the value -10 it is to take away 10 over its area, and gives off 100. -/
theorem negative_surface_shines : ∃ (f : Surface ℚ) (l : Vpl ℚ) (s : Source ℚ) (w : Vec ℚ), sources f [] = [s] ∧
    surfaceLights (env .low) f [] = some l ∧ Wanted (env .low) f s w ∧ w = ⟨-10, -10, -10⟩ ∧ f.area = 100 ∧
    l.styles.map (given 1) = [⟨10000, 10000, 10000⟩] ∧ isLit f [] = false := by
  have h : (surfaceLights (env .low) (panel 255 (-10) ⟨0, 0, 0⟩) []).map (fun l => l.styles.map (given 1))
      = some [⟨10000, 10000, 10000⟩] := by decide +kernel
  obtain ⟨l, hl, h⟩ := Option.map_eq_some_iff.1 h
  exact ⟨panel 255 (-10) ⟨0, 0, 0⟩, l, _, _, rfl, hl, (wanted_iff _ _ _ _).2 rfl, by decide +kernel, rfl, h,
    by decide +kernel⟩

/-- A square that bounces light. -/
def wall : BFace ℚ := ⟨true, true, false, false, false, true, sq, 100, ⟨0, 0, 1⟩, ⟨1 / 2, 1 / 2, 1 / 2⟩⟩

/-- Light is bounced from where the face is in the file, not from where its model is: the face of a model that is moved by
1000 emits light in its place, but bounces it from 1000 units away. -/
theorem bounce_forgets_offset :
    (surfacePoints (env .low) (panel 255 300 ⟨1000, 0, 0⟩)).2.1 = [⟨1005, 5, 1⟩] ∧
    (panel 255 300 ⟨1000, 0, 0⟩).poly = wall.poly ∧
    (bouncePoints (env .low) wall).2 = [⟨5, 5, 1⟩] ∧
    ¬ ∃ u, Inside (wall.poly.map fun p => vadd p ⟨1000, 0, 0⟩) u ∧ (⟨5, 5, 1⟩ : Vec ℚ) = vadd u wall.normal := by
  refine ⟨by decide +kernel, rfl, by decide +kernel, ?_⟩
  rintro ⟨u, hu, e⟩
  have h := hu ⟨-1, 0, 0⟩ (-1000) (by
    intro v hv
    simp only [wall, sq, List.map_cons, List.map_nil, List.mem_cons, List.not_mem_nil, or_false] at hv
    rcases hv with rfl | rfl | rfl | rfl <;> norm_num [dot, vadd])
  have : u.x = 5 := by
    have := congrArg Vec.x e
    simp only [vadd, wall] at this
    linarith
  simp only [dot, this] at h
  norm_num at h

/-- What is seen of a face after a pass. -/
def seen : Outcome (Surf ℚ × Bool) → Option (List (Vec ℚ) × List (Vec ℚ) × List (Vec ℚ) × Bool)
  | .ok (s, b) => some (points s.vpl, s.maps.map (·.bounce), (settings s.vpl).map (given 1), b)
  | _ => none

/-- Non-vacuity of `bounce_pass_partial` and of `bounce_points_partial`: two light maps, one with a style that is not
bounced. -/
example : seen (bounceFace (env .high) false wall 0 ⟨[⟨0, 4, ⟨800, 400, 0⟩⟩, ⟨32, 4, ⟨8, 8, 8⟩⟩], none⟩)
    = some ([⟨5, 5, 1⟩], [⟨0, 0, 0⟩, ⟨8, 8, 8⟩], [⟨10000, 5000, 0⟩], true) := by
  decide +kernel

example : removeColinear sign sq = sq := by decide +kernel

end Verif.Radiosity
