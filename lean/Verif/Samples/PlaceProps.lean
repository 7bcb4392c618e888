import Verif.Samples.ClosestProps

/-!
The face and the place that a light sample gets (C179).
-/

namespace Verif.Samples

open Verif.Geom Verif.Phong

/-- A face that is reached from another one across at most so many edges. -/
inductive Reach (across : Nat → Nat → Option Nat) : Nat → Nat → Nat → Prop where
  | here (k g : Nat) : Reach across k g g
  | cross (k g i g' h : Nat) : across g i = some g' → Reach across k g' h → Reach across (k + 1) g h

/-- A move by half a unit along each axis. -/
def Jitter (p q : Vec ℝ) : Prop := |q.x - p.x| = 1 / 2 ∧ |q.y - p.y| = 1 / 2 ∧ |q.z - p.z| = 1 / 2

/-- What holds of a sample that is placed on a face: the place is not in a solid; it, or the place that it was moved from
because that one is in a solid, is one unit in front of the plane, give or take a tenth, and at most `pointEps` past an edge
plane; its normal is the one of the plane or, with smoothing, the one interpolated there. -/
def Placed (s : Scene ℝ) (g : Nat) (q n : Vec ℝ) : Prop :=
  ∃ m p, (s.face g).model = some m ∧ s.solid m (add q s.offset) = false ∧
    (q = p ∨ s.solid m (add p s.offset) = true ∧ Jitter p q) ∧
    |dot (s.face g).plane.normal p - (s.face g).plane.dist - 1| ≤ 1 / 10 ∧
    (edgePlanes L (s.face g).points ≠ [] ∧
      ∀ pl ∈ edgePlanes L (s.face g).points, -pointEps ≤ dot pl.normal p - pl.dist) ∧
    (s.phong = false → n = (s.face g).plane.normal) ∧
    (s.phong = true → interpolate L ((s.face g).points.zip (s.face g).normals) p = some n)

theorem jitters_jitter {j : Vec ℝ} (h : j ∈ (jitters : List (Vec ℝ))) (p : Vec ℝ) :
    Jitter p (add p (smul (1 / 2) j)) := by
  simp only [jitters, List.mem_cons, List.not_mem_nil, or_false] at h
  rcases h with rfl | rfl | rfl | rfl | rfl | rfl | rfl | rfl <;>
    (simp only [Jitter, add, smul]
     refine ⟨?_, ?_, ?_⟩ <;> (rw [add_sub_cancel_left]; norm_num [abs_of_pos, abs_of_neg]))

theorem placeAt_at {s : Scene ℝ} {g h : Nat} {m : Solid ℝ} {p n q k : Vec ℝ} (e : placeAt s g m p n = .at h q k) :
    h = g ∧ k = n ∧ s.solid m (add q s.offset) = false ∧
      (q = p ∨ s.solid m (add p s.offset) = true ∧ Jitter p q) := by
  unfold placeAt at e
  by_cases hs : s.solid m (add p s.offset) = true
  · rw [if_pos hs] at e
    split at e
    · next j hj =>
      cases e
      have h1 := List.find?_some hj
      exact ⟨rfl, rfl, by simpa using h1, Or.inr ⟨hs, jitters_jitter (List.mem_of_find?_eq_some hj) p⟩⟩
    · cases e
  · rw [if_neg hs] at e
    cases e
    exact ⟨rfl, rfl, by simpa using hs, Or.inl rfl⟩

theorem positionOnFace_at {s : Scene ℝ} {g h : Nat} {p q k : Vec ℝ} (e : positionOnFace L s g p = .at h q k) :
    h = g ∧ Placed s g q k := by
  unfold positionOnFace at e
  simp only at e
  split at e
  · cases e
  · next h1 =>
    split at e
    · cases e
    · next h2 =>
      split at e
      · cases e
      · next h3 =>
        have h3' : ∀ pl ∈ edgePlanes L (s.face g).points, -pointEps ≤ dot pl.normal p - pl.dist := by
          have : insideBy (edgePlanes L (s.face g).points) p (-pointEps) = true := by simpa using h3
          unfold insideBy at this
          simpa [above] using this
        have h2' : |dot (s.face g).plane.normal p - (s.face g).plane.dist - 1| ≤ 1 / 10 := by
          push Not at h2
          exact h2
        cases hm : (s.face g).model with
        | none => rw [hm] at e; cases e
        | some m =>
          rw [hm] at e
          simp only at e
          by_cases hp : s.phong = true
          · rw [if_pos hp] at e
            split at e
            · cases e
            · next n hn =>
              obtain ⟨rfl, rfl, a1, a2⟩ := placeAt_at e
              exact ⟨rfl, m, p, hm, a1, a2, h2', ⟨h1, h3'⟩, by simp [hp], fun _ => hn⟩
          · rw [if_neg hp] at e
            obtain ⟨rfl, rfl, a1, a2⟩ := placeAt_at e
            exact ⟨rfl, m, p, hm, a1, a2, h2', ⟨h1, h3'⟩, fun _ => rfl, by simp [hp]⟩

theorem snap_at {s : Scene ℝ} {g h : Nat} {p q k : Vec ℝ} (e : snap L s g p = .at h q k) : h = g ∧ Placed s g q k := by
  unfold snap at e
  split at e
  · cases e
  · split at e
    · exact positionOnFace_at e
    · cases e

/-- C179: a sample that is not occluded belongs to a face that is reached across at most as many smoothed edges as the depth
allows (three, light/ltface.cc:233), and it is placed on this face, outside of all solids. -/
theorem sample_is_placed {s : Scene ℝ} : ∀ (d g : Nat) (orig : Vec ℝ) (h : Nat) (q n : Vec ℝ),
    calcPoint L s d g orig = .at h q n → Reach s.across d g h ∧ Placed s h q n := by
  intro d
  induction d with
  | zero =>
    intro g orig h q n e
    unfold calcPoint at e
    simp only at e
    split at e
    · cases e
    · split at e
      · obtain ⟨rfl, hp⟩ := positionOnFace_at e
        exact ⟨Reach.here _ _, hp⟩
      · split at e
        · obtain ⟨rfl, hp⟩ := snap_at e
          exact ⟨Reach.here _ _, hp⟩
        · split at e
          · next h0 => cases h0
          · obtain ⟨rfl, hp⟩ := snap_at e
            exact ⟨Reach.here _ _, hp⟩
  | succ d ih =>
    intro g orig h q n e
    unfold calcPoint at e
    simp only at e
    split at e
    · cases e
    · split at e
      · obtain ⟨rfl, hp⟩ := positionOnFace_at e
        exact ⟨Reach.here _ _, hp⟩
      · split at e
        · obtain ⟨rfl, hp⟩ := snap_at e
          exact ⟨Reach.here _ _, hp⟩
        · next b hb =>
          split at e
          · next g' d' ha hd =>
            cases hd
            obtain ⟨h1, h2⟩ := ih _ _ _ _ _ e
            exact ⟨Reach.cross _ _ _ _ _ ha h1, h2⟩
          · obtain ⟨rfl, hp⟩ := snap_at e
            exact ⟨Reach.here _ _, hp⟩

/-- The place of a point one unit in front of the plane of a face. -/
noncomputable def lifted (pl : Plane ℝ) (p : Vec ℝ) : Vec ℝ :=
  let t := 1 - (dot pl.normal p - pl.dist)
  ⟨p.x + t * pl.normal.x, p.y + t * pl.normal.y, p.z + t * pl.normal.z⟩

theorem lifted_eq (pl : Plane ℝ) (p : Vec ℝ) : add (project pl p) pl.normal = lifted pl p := by
  refine vec_ext ?_ ?_ ?_ <;> (simp only [add, project, above, smul, lifted]; ring)

theorem inward_lifted (pl : Plane ℝ) (p a b : Vec ℝ) : inward pl.normal a b (lifted pl p) = inward pl.normal a b p := by
  unfold inward
  congr 1
  simp only [lifted]
  generalize 1 - (dot pl.normal p - pl.dist) = t
  unfold dot cross sub
  ring

theorem above_lifted {pl : Plane ℝ} (hu : dot pl.normal pl.normal = 1) (p : Vec ℝ) : above pl (lifted pl p) = 1 := by
  unfold above
  have : dot pl.normal (lifted pl p) = dot pl.normal p + (1 - (dot pl.normal p - pl.dist)) * dot pl.normal pl.normal := by
    simp only [lifted]
    generalize 1 - (dot pl.normal p - pl.dist) = t
    unfold dot
    ring
  rw [this, hu]
  ring

theorem inside_call {s : Scene ℝ} {d g : Nat} {orig : Vec ℝ} (hw : WellFormed (s.face g).plane.normal (s.face g).points)
    (hin : ∀ a b, IsEdge (s.face g).points a b → -pointEps ≤ inward (s.face g).plane.normal a b orig) :
    calcPoint L s d g orig = positionOnFace L s g (lifted (s.face g).plane orig) ∧
    insideBy (edgePlanes L (s.face g).points) (lifted (s.face g).plane orig) (-pointEps) = true := by
  have hb : insideBy (edgePlanes L (s.face g).points) (lifted (s.face g).plane orig) (-pointEps) = true := by
    rw [insideBy_iff hw]
    intro a b he
    rw [inward_lifted]
    exact hin a b he
  refine ⟨?_, hb⟩
  have hl := length_of_some hw
  have hne := edgePlanes_ne hw
  unfold calcPoint
  simp only
  rw [if_neg, lifted_eq, if_pos]
  · unfold pointInside
    rw [if_neg hne]
    exact hb
  · rintro (h | h)
    · rw [h] at hl
      simp at hl
    · exact hne h

/-- C179: a sample of a well-formed face over a point of the face stays on the face, one unit in front of the point, if
that place is not in a solid. -/
theorem sample_over_its_face_stays {s : Scene ℝ} {d g : Nat} {orig : Vec ℝ} {m : Solid ℝ}
    (hw : WellFormed (s.face g).plane.normal (s.face g).points)
    (hlen : (s.face g).normals.length = (s.face g).points.length)
    (hin : ∀ a b, IsEdge (s.face g).points a b → -pointEps ≤ inward (s.face g).plane.normal a b orig)
    (hm : (s.face g).model = some m)
    (hs : s.solid m (add (lifted (s.face g).plane orig) s.offset) = false) :
    ∃ n, calcPoint L s d g orig = .at g (lifted (s.face g).plane orig) n ∧
      (s.phong = false → n = (s.face g).plane.normal) := by
  obtain ⟨e, hb⟩ := inside_call (d := d) hw hin
  rw [e]
  unfold positionOnFace
  simp only
  rw [if_neg (edgePlanes_ne hw), above_lifted hw.unit, if_neg (by norm_num), hb]
  simp only [Bool.not_true, Bool.false_eq_true, if_false]
  rw [hm]
  simp only
  have hpl : ∀ n, placeAt s g m (lifted (s.face g).plane orig) n = .at g (lifted (s.face g).plane orig) n := by
    intro n
    unfold placeAt
    rw [hs]
    simp
  by_cases hp : s.phong = true
  · rw [if_pos hp]
    obtain ⟨n, hn⟩ := interpolated_normal_exists (p := lifted (s.face g).plane orig) hw hlen (by
      intro a b he
      rw [inward_lifted]
      exact hin a b he)
    rw [hn]
    exact ⟨n, hpl n, by simp [hp]⟩
  · rw [if_neg hp]
    exact ⟨_, hpl _, fun _ => rfl⟩

theorem jitters_all {p q : Vec ℝ} (h : Jitter p q) : ∃ j ∈ (jitters : List (Vec ℝ)), q = add p (smul (1 / 2) j) := by
  obtain ⟨hx, hy, hz⟩ := h
  have key : ∀ {a b : ℝ}, |b - a| = 1 / 2 → b = a + 1 / 2 * 1 ∨ b = a + 1 / 2 * (-1) := by
    intro a b hab
    rcases abs_choice (b - a) with h1 | h1
    · left; linarith
    · right; linarith
  rcases key hx with hx | hx <;> rcases key hy with hy | hy <;> rcases key hz with hz | hz
  · exact ⟨⟨1, 1, 1⟩, by simp [jitters], vec_ext hx hy hz⟩
  · exact ⟨⟨1, 1, -1⟩, by simp [jitters], vec_ext hx hy hz⟩
  · exact ⟨⟨1, -1, 1⟩, by simp [jitters], vec_ext hx hy hz⟩
  · exact ⟨⟨1, -1, -1⟩, by simp [jitters], vec_ext hx hy hz⟩
  · exact ⟨⟨-1, 1, 1⟩, by simp [jitters], vec_ext hx hy hz⟩
  · exact ⟨⟨-1, 1, -1⟩, by simp [jitters], vec_ext hx hy hz⟩
  · exact ⟨⟨-1, -1, 1⟩, by simp [jitters], vec_ext hx hy hz⟩
  · exact ⟨⟨-1, -1, -1⟩, by simp [jitters], vec_ext hx hy hz⟩

/-- C179: a sample of a well-formed face over a point of the face is occluded only if the place in front of the point and the
eight places around it are in solids. -/
theorem sample_over_its_face_occluded {s : Scene ℝ} {d g : Nat} {orig : Vec ℝ} {m : Solid ℝ} {r : Vec ℝ}
    (hw : WellFormed (s.face g).plane.normal (s.face g).points)
    (hlen : (s.face g).normals.length = (s.face g).points.length)
    (hin : ∀ a b, IsEdge (s.face g).points a b → -pointEps ≤ inward (s.face g).plane.normal a b orig)
    (hm : (s.face g).model = some m) (hocc : calcPoint L s d g orig = .occluded r) :
    s.solid m (add (lifted (s.face g).plane orig) s.offset) = true ∧
      ∀ q, Jitter (lifted (s.face g).plane orig) q → s.solid m (add q s.offset) = true := by
  have h0 : s.solid m (add (lifted (s.face g).plane orig) s.offset) = true := by
    by_contra hs
    obtain ⟨n, hn, _⟩ := sample_over_its_face_stays (d := d) hw hlen hin hm (by simpa using hs)
    rw [hn] at hocc
    cases hocc
  refine ⟨h0, ?_⟩
  intro q hq
  obtain ⟨j, hj, rfl⟩ := jitters_all hq
  obtain ⟨e, hb⟩ := inside_call (d := d) hw hin
  rw [e] at hocc
  have hno : ∀ n, placeAt s g m (lifted (s.face g).plane orig) n = .occluded r →
      s.solid m (add (add (lifted (s.face g).plane orig) (smul (1 / 2) j)) s.offset) = true := by
    intro n hn
    unfold placeAt at hn
    rw [if_pos h0] at hn
    split at hn
    · cases hn
    · next hf =>
      have := List.find?_eq_none.1 hf j hj
      simpa using this
  unfold positionOnFace at hocc
  simp only at hocc
  rw [if_neg (edgePlanes_ne hw), above_lifted hw.unit, if_neg (by norm_num), hb] at hocc
  simp only [Bool.not_true, Bool.false_eq_true, if_false] at hocc
  rw [hm] at hocc
  simp only at hocc
  by_cases hp : s.phong = true
  · rw [if_pos hp] at hocc
    obtain ⟨n, hn⟩ := interpolated_normal_exists (p := lifted (s.face g).plane orig) hw hlen (by
      intro a b he
      rw [inward_lifted]
      exact hin a b he)
    rw [hn] at hocc
    exact hno _ hocc
  · rw [if_neg hp] at hocc
    exact hno _ hocc

/-- A scene with a triangle in an empty world. -/
noncomputable def triScene : Scene ℝ :=
  { face := fun _ => ⟨tri, [⟨0, 0, 1⟩, ⟨0, 0, 1⟩, ⟨0, 0, 1⟩], ⟨⟨0, 0, 1⟩, 0⟩, some ⟨fun _ => false, ⟨0, 0, 0⟩, 1, true⟩⟩
    across := fun _ _ => none
    solid := fun m p => m.inside p
    luxelDist := fun a b => L (sub a b)
    phong := true
    offset := ⟨0, 0, 0⟩ }

/-- The hypotheses are met: a sample of a triangle. -/
example : ∃ n, calcPoint L triScene 3 0 ⟨1, 1, 1⟩ = .at 0 (lifted ⟨⟨0, 0, 1⟩, 0⟩ ⟨1, 1, 1⟩) n ∧ Placed triScene 0
    (lifted ⟨⟨0, 0, 1⟩, 0⟩ ⟨1, 1, 1⟩) n := by
  obtain ⟨n, hn, _⟩ := sample_over_its_face_stays (s := triScene) (d := 3) (g := 0) (orig := ⟨1, 1, 1⟩)
    (m := ⟨fun _ => false, ⟨0, 0, 0⟩, 1, true⟩) tri_wellFormed rfl tri_inside rfl rfl
  exact ⟨n, hn, (sample_is_placed _ _ _ _ _ _ hn).2⟩

/-- C179: a sample that is not over its face and has no face to go to across an edge is moved to the nearest point of the
border if this is at most one luxel away, and is occluded if not. -/
theorem sample_past_the_border {s : Scene ℝ} {d g : Nat} {orig : Vec ℝ}
    (hw : WellFormed (s.face g).plane.normal (s.face g).points)
    (hout : ∃ a b, IsEdge (s.face g).points a b ∧ inward (s.face g).plane.normal a b orig < -pointEps)
    (hno : ∀ i, s.across g i = none) :
    ∃ a b c, IsEdge (s.face g).points a b ∧ OnSegment a b c ∧
      (∀ a' b' q, IsEdge (s.face g).points a' b' → OnSegment a' b' q →
        L (sub c (lifted (s.face g).plane orig)) ≤ L (sub q (lifted (s.face g).plane orig))) ∧
      (s.luxelDist (lifted (s.face g).plane orig) c ≤ 1 →
        calcPoint L s d g orig = positionOnFace L s g (add c (s.face g).plane.normal)) ∧
      (1 < s.luxelDist (lifted (s.face g).plane orig) c →
        calcPoint L s d g orig = .occluded (lifted (s.face g).plane orig)) := by
  have hl := length_of_some hw
  have hne := edgePlanes_ne hw
  have hps : (s.face g).points ≠ [] := by
    intro h
    rw [h] at hl
    simp at hl
  obtain ⟨j, a, b, c, e, ha, hb, hc, hmin⟩ := closest_on_border hps (lifted (s.face g).plane orig)
  have hcall : calcPoint L s d g orig = snap L s g (lifted (s.face g).plane orig) := by
    unfold calcPoint
    simp only
    rw [if_neg (by rintro (h | h) <;> contradiction), lifted_eq, if_neg]
    · split
      · rfl
      · split
        · next _ _ hx => rw [hno] at hx; cases hx
        · rfl
    · intro hin
      unfold pointInside at hin
      rw [if_neg hne, insideBy_iff hw] at hin
      obtain ⟨x, y, he, hlt⟩ := hout
      have := hin x y he
      rw [inward_lifted] at this
      linarith
  refine ⟨a, b, c, ⟨j, ha, hb⟩, hc, hmin, ?_, ?_⟩
  · intro h
    rw [hcall]
    unfold snap
    rw [e]
    simp only
    rw [if_pos h]
  · intro h
    rw [hcall]
    unfold snap
    rw [e]
    simp only
    rw [if_neg (not_le.2 h)]

end Verif.Samples
