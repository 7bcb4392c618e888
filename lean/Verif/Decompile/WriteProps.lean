import Verif.Decompile.LeafProps
import Mathlib.Tactic.LinearCombination
import Mathlib.Tactic.FieldSimp

/-! C168: the sides that are written. C169: the keys of entities. -/

namespace Verif.Decompile

open Verif.Geom Verif.Geom.Spec Verif.Tree Verif.BrushBsp

set_option linter.unusedSectionVars false

variable {K : Type} [Field K] [LinearOrder K] [IsStrictOrderedRing K]

/-! ## Planes -/

/-- The largest component of a vector that is not zero is not zero. -/
theorem largest_ne {n : Vec K} (h : dot n n ≠ 0) :
    dot (cross (otherA (largest n)) (otherB (largest n))) n ≠ 0 := by
  have key : (n.x = 0 ∧ n.y = 0 ∧ n.z = 0) → False := by
    rintro ⟨a, b, c⟩
    exact h (by simp [dot, a, b, c])
  unfold largest
  split_ifs with h1 h2 h2
  · simp only [otherA, otherB, cross, dot]
    simp only [show (2 : Fin 3) ≠ 0 by decide, show (2 : Fin 3) ≠ 1 by decide, if_false]
    have : 0 < |n.z| := lt_of_le_of_lt (abs_nonneg _) h2
    have := abs_pos.1 this
    simpa using this
  · simp only [otherA, otherB, cross, dot]
    simp only [show (1 : Fin 3) ≠ 0 by decide, if_false, if_true]
    have : 0 < |n.y| := lt_of_le_of_lt (abs_nonneg _) h1
    have := abs_pos.1 this
    simpa using this
  · simp only [otherA, otherB, cross, dot]
    simp only [show (2 : Fin 3) ≠ 0 by decide, show (2 : Fin 3) ≠ 1 by decide, if_false]
    have : 0 < |n.z| := lt_of_le_of_lt (abs_nonneg _) h2
    have := abs_pos.1 this
    simpa using this
  · simp only [otherA, otherB, cross, dot]
    simp only [if_true]
    have hx : n.x ≠ 0 := by
      intro e
      rw [e, abs_zero] at h1 h2
      exact key ⟨e, abs_nonpos_iff.1 (not_lt.1 h1), abs_nonpos_iff.1 (not_lt.1 h2)⟩
    simpa using hx

/-- The component along an axis. -/
def component (n : Vec K) (i : Fin 3) : K := if i = 0 then n.x else if i = 1 then n.y else n.z

/-- C168: no component is larger than the one that is chosen. -/
theorem largest_ge (n : Vec K) (i : Fin 3) : |component n i| ≤ |component n (largest n)| := by
  have key : ∀ j : Fin 3, j = 0 ∨ j = 1 ∨ j = 2 := by decide
  unfold largest
  split_ifs with h1 h2 h2 <;> rcases key i with rfl | rfl | rfl <;>
    simp only [component, show (1 : Fin 3) ≠ 0 by decide, show (2 : Fin 3) ≠ 0 by decide, show (2 : Fin 3) ≠ 1 by decide,
      if_true, if_false] <;> linarith

theorem cross_cross (n a b : Vec K) : cross (cross n a) (cross n b) = vmul (dot (cross a b) n) n := by
  simp only [cross, vmul, dot, Vec.mk.injEq]
  refine ⟨?_, ?_, ?_⟩ <;> ring

theorem dot_vmul (c : K) (n m : Vec K) : dot (vmul c n) m = c * dot n m := by
  simp only [dot, vmul]; ring

/-- C168: the three points that are written for a side without a polygon give its plane back. -/
theorem points_give_plane {pl : Plane K} (hu : UnitNormal pl) :
    Through (threePoints pl).1 (threePoints pl).2.1 (threePoints pl).2.2 pl := by
  have hu' : pl.normal.x * pl.normal.x + pl.normal.y * pl.normal.y + pl.normal.z * pl.normal.z = 1 := hu
  have hn : dot pl.normal pl.normal = 1 := hu
  have main : ∀ t b : Vec K, dot t pl.normal = 0 → dot b pl.normal = 0 → ∀ c, 0 < c → cross t b = vmul c pl.normal →
      Through (vmul pl.dist pl.normal) (vadd (vmul pl.dist pl.normal) b) (vadd (vmul pl.dist pl.normal) t) pl := by
    intro t b _ hb c hc e
    refine ⟨?_, c, hc, ?_⟩
    · simp only [Plane.distTo, dot, vadd, vmul] at hb ⊢
      linear_combination pl.dist * hu' + hb
    · rw [← e]
      simp only [cross, vsub, vadd, vmul, Vec.mk.injEq]
      refine ⟨?_, ?_, ?_⟩ <;> ring
  have perp : ∀ a : Vec K, dot (cross pl.normal a) pl.normal = 0 := by
    intro a; simp only [dot, cross]; ring
  have hne := largest_ne (n := pl.normal) (by rw [hn]; exact one_ne_zero)
  have hcc := cross_cross pl.normal (otherA (largest pl.normal)) (otherB (largest pl.normal))
  have hcc' : cross (cross pl.normal (otherB (largest pl.normal))) (cross pl.normal (otherA (largest pl.normal))) =
      vmul (-dot (cross (otherA (largest pl.normal)) (otherB (largest pl.normal))) pl.normal) pl.normal := by
    simp only [cross, vmul, dot, Vec.mk.injEq]
    refine ⟨?_, ?_, ?_⟩ <;> ring
  unfold threePoints tangents
  simp only
  split_ifs with h
  · refine main _ _ (perp _) (perp _) _ ?_ hcc'
    rw [hcc, dot_vmul, hn, mul_one] at h
    linarith
  · refine main _ _ (perp _) (perp _) _ ?_ hcc
    rw [hcc, dot_vmul, hn, mul_one] at h
    exact lt_of_le_of_ne (not_lt.1 h) hne.symm

/-- Where a brush is moved: a plane is moved along. -/
def movedPlane (o : Vec K) (pl : Plane K) : Plane K := ⟨pl.normal, pl.dist + dot o pl.normal⟩

theorem moved_dist (o : Vec K) (pl : Plane K) (x : Vec K) : (movedPlane o pl).distTo (vadd x o) = pl.distTo x := by
  simp only [movedPlane, Plane.distTo, dot, vadd]; ring

/-- C168: the three points that are written give the plane of the side, moved with the brush. -/
theorem written_plane {w : Option (Vec K × Vec K × Vec K)} {pl : Plane K} {s t : ValveAxis K} {offset : Option (Vec K)}
    (hu : UnitNormal pl) (hw : ∀ p, w = some p → Through p.1 p.2.1 p.2.2 pl) :
    Through (writeSide w pl s t offset).p0 (writeSide w pl s t offset).p1 (writeSide w pl s t offset).p2
      (match offset with
       | none => pl
       | some o => movedPlane o pl) := by
  have h : Through (w.getD (threePoints pl)).1 (w.getD (threePoints pl)).2.1 (w.getD (threePoints pl)).2.2 pl := by
    cases w with
    | none => exact points_give_plane hu
    | some p => exact hw p rfl
  cases offset with
  | none => exact h
  | some o =>
    obtain ⟨h1, c, hc, h2⟩ := h
    refine ⟨?_, c, hc, ?_⟩
    · simp only [writeSide]
      rw [moved_dist]
      exact h1
    · change _ = vmul c pl.normal
      rw [← h2]
      simp only [writeSide, cross, vsub, vadd, Vec.mk.injEq]
      refine ⟨?_, ?_, ?_⟩ <;> ring

/-- C168: the plane through three points is determined by them. -/
theorem through_unique {p0 p1 p2 : Vec K} {a b : Plane K} (ha : UnitNormal a) (hb : UnitNormal b)
    (h1 : Through p0 p1 p2 a) (h2 : Through p0 p1 p2 b) : a = b := by
  obtain ⟨d1, c, hc, e1⟩ := h1
  obtain ⟨d2, e, he, e2⟩ := h2
  rw [e1] at e2
  have ha' : a.normal.x * a.normal.x + a.normal.y * a.normal.y + a.normal.z * a.normal.z = 1 := ha
  have hb' : b.normal.x * b.normal.x + b.normal.y * b.normal.y + b.normal.z * b.normal.z = 1 := hb
  simp only [vmul, Vec.mk.injEq] at e2
  obtain ⟨x, y, z⟩ := e2
  have hce : c * c = e * e := by
    have e3 : (c * a.normal.x) * (c * a.normal.x) + (c * a.normal.y) * (c * a.normal.y) + (c * a.normal.z) * (c * a.normal.z) =
      (e * b.normal.x) * (e * b.normal.x) + (e * b.normal.y) * (e * b.normal.y) + (e * b.normal.z) * (e * b.normal.z) := by
      rw [x, y, z]
    linear_combination e3 - (c * c) * ha' + (e * e) * hb'
  have hce' : c = e := by nlinarith
  subst hce'
  have x' := mul_left_cancel₀ hc.ne' x
  have y' := mul_left_cancel₀ hc.ne' y
  have z' := mul_left_cancel₀ hc.ne' z
  have hn : a.normal = b.normal := by
    cases ha2 : a.normal; cases hb2 : b.normal
    rw [ha2, hb2] at x' y' z'
    simp only at x' y' z'
    rw [x', y', z']
  obtain ⟨an, ad⟩ := a
  obtain ⟨bn, bd⟩ := b
  simp only at hn
  subst hn
  simp only [Plane.distTo] at d1 d2
  rw [show ad = bd by linarith]

example : Through (K := ℚ) (threePoints ⟨⟨0, 0, 1⟩, 8⟩).1 (threePoints ⟨⟨0, 0, 1⟩, 8⟩).2.1 (threePoints ⟨⟨0, 0, 1⟩, 8⟩).2.2
    ⟨⟨0, 0, 1⟩, 8⟩ := points_give_plane (by simp [UnitNormal, dot])

/-! ## Texture coordinates -/

/-- C168: the Valve axis of a row of texture vectors gives the same texture coordinates as the row, if it has a length. -/
theorem texture_kept {len : Vec K → K} {v : Vec K} (h : len v ≠ 0) (d : K) (x : Vec K) :
    (valveOf len v d).coord x = dot x v + d := by
  unfold valveOf ValveAxis.coord
  simp only
  rw [if_neg h, if_pos h]
  simp only [dot, vmul]
  field_simp

/-- C168: how far a texture slides when the brush is moved. -/
theorem texture_slide (a : ValveAxis K) (o x : Vec K) :
    (moveAxis o a).coord (vadd x o) = a.coord x + dot o a.axis * (1 / a.scale - 1) := by
  simp only [moveAxis, ValveAxis.coord, dot, vadd]
  rw [div_eq_mul_one_div, div_eq_mul_one_div (x.x * _ + _ + _)]
  ring

/-- C168: with textures that are not scaled, textures move with the brush. Missing: scaled textures, for which it is false
(`texture_slides`). -/
theorem texture_moves_partial {a : ValveAxis K} (h : a.scale = 1) (o x : Vec K) :
    (moveAxis o a).coord (vadd x o) = a.coord x := by
  rw [texture_slide, h]; ring

/-- C168: the textures of a written side: they stay when the brush does, and move with it when they are not scaled. Missing:
scaled textures on moved brushes. -/
theorem written_textures_partial (w : Option (Vec K × Vec K × Vec K)) (pl : Plane K) (s t : ValveAxis K) (x : Vec K) :
    ((writeSide w pl s t none).s.coord x = s.coord x ∧ (writeSide w pl s t none).t.coord x = t.coord x) ∧
    ∀ o, (s.scale = 1 → (writeSide w pl s t (some o)).s.coord (vadd x o) = s.coord x) ∧
      (t.scale = 1 → (writeSide w pl s t (some o)).t.coord (vadd x o) = t.coord x) :=
  ⟨⟨rfl, rfl⟩, fun o => ⟨fun h => texture_moves_partial h o x, fun h => texture_moves_partial h o x⟩⟩

/-- C168 does not hold for scaled textures: a texture that is drawn at twice its size and moved with its brush by 64 units
slides by 32. -/
theorem texture_slides :
    (moveAxis (K := ℚ) ⟨64, 0, 0⟩ ⟨⟨1, 0, 0⟩, 0, 2⟩).coord (vadd ⟨0, 0, 0⟩ ⟨64, 0, 0⟩) =
      (⟨⟨1, 0, 0⟩, 0, 2⟩ : ValveAxis ℚ).coord ⟨0, 0, 0⟩ - 32 := by
  decide +kernel

example : (valveOf (K := ℚ) (fun v => |v.x|) ⟨1 / 2, 0, 0⟩ 5).coord ⟨10, 3, 4⟩ = 10 := by decide +kernel

/-! ## Textures of sides without a face -/

/-- The search gives the texture of the best candidate so far. -/
theorem nearer_best {skip : String} {n : Vec K} {i : Nat} :
    ∀ (l : List (TSide K × Nat)) (best : Option (K × String)),
      (best = none ∧ (∀ c ∈ l, c.2 = i ∨ c.1.tex = skip) ∧ l.foldl (nearer skip n i) best = none) ∨
      ∃ r, l.foldl (nearer skip n i) best = some r ∧
        (best = some r ∨ ∃ c ∈ l, c.2 ≠ i ∧ c.1.tex ≠ skip ∧ c.1.tex = r.2 ∧ dot (negVec n) c.1.normal = r.1) ∧
        (∀ b, best = some b → b.1 ≤ r.1) ∧
        ∀ c ∈ l, c.2 ≠ i → c.1.tex ≠ skip → dot (negVec n) c.1.normal ≤ r.1 := by
  intro l
  induction l with
  | nil =>
    intro best
    cases best with
    | none => left; simp
    | some b => right; exact ⟨b, rfl, Or.inl rfl, by simp, by simp⟩
  | cons c l ih =>
    intro best
    rw [List.foldl_cons]
    by_cases h1 : c.2 = i ∨ c.1.tex = skip
    · have e : nearer skip n i best c = best := by
        unfold nearer
        rcases h1 with h1 | h1
        · rw [if_pos h1]
        · split_ifs <;> rfl
      rw [e]
      rcases ih best with ⟨a, b, d⟩ | ⟨r, a, b, d, e'⟩
      · left
        refine ⟨a, ?_, d⟩
        intro c' hc'
        rcases List.mem_cons.1 hc' with rfl | hc'
        · exact h1
        · exact b c' hc'
      · right
        refine ⟨r, a, ?_, d, ?_⟩
        · rcases b with b | ⟨c', h, b⟩
          · exact Or.inl b
          · exact Or.inr ⟨c', List.mem_cons_of_mem _ h, b⟩
        · intro c' hc' x y
          rcases List.mem_cons.1 hc' with rfl | hc'
          · rcases h1 with h1 | h1
            · exact absurd h1 x
            · exact absurd h1 y
          · exact e' c' hc' x y
    · push Not at h1
      right
      have e : ∃ r, nearer skip n i best c = some r ∧ (best = some r ∨ (c.1.tex = r.2 ∧ dot (negVec n) c.1.normal = r.1)) ∧
          dot (negVec n) c.1.normal ≤ r.1 ∧ ∀ b, best = some b → b.1 ≤ r.1 := by
        unfold nearer
        rw [if_neg h1.1, if_neg h1.2]
        cases best with
        | none => exact ⟨_, rfl, Or.inr ⟨rfl, rfl⟩, le_refl _, by simp⟩
        | some b =>
          simp only
          split_ifs with hd
          · refine ⟨_, rfl, Or.inr ⟨rfl, rfl⟩, le_refl _, ?_⟩
            intro b' hb'; cases hb'; exact hd.le
          · refine ⟨b, rfl, Or.inl rfl, not_lt.1 hd, ?_⟩
            intro b' hb'; cases hb'; exact le_refl _
      obtain ⟨r, e, e1, e2, e3⟩ := e
      rw [e]
      rcases ih (some r) with ⟨a, _⟩ | ⟨r', a, b, d, f⟩
      · cases a
      · have hrr := d r rfl
        refine ⟨r', a, ?_, fun b' hb' => (e3 b' hb').trans hrr, ?_⟩
        · rcases b with b | ⟨c', h, b⟩
          · cases b
            rcases e1 with e1 | e1
            · exact Or.inl e1
            · exact Or.inr ⟨c, List.mem_cons_self, h1.1, h1.2, e1⟩
          · exact Or.inr ⟨c', List.mem_cons_of_mem _ h, b⟩
        · intro c' hc' x y
          rcases List.mem_cons.1 hc' with rfl | hc'
          · exact e2.trans hrr
          · exact f c' hc' x y

/-- C168: a side without a texture gets the texture of a side that has one and faces the other way more than all others
do. -/
theorem fill_opposite {skip dflt : String} {sides : List (TSide K)} {i : Nat} {s : TSide K} (hs : s.tex = skip)
    (h : ∃ j c, sides[j]? = some c ∧ j ≠ i ∧ c.tex ≠ skip) :
    ∃ j c, sides[j]? = some c ∧ j ≠ i ∧ c.tex ≠ skip ∧ textureFor skip dflt sides s i = c.tex ∧
      ∀ (k : Nat) d, sides[k]? = some d → k ≠ i → d.tex ≠ skip → dot (negVec s.normal) d.normal ≤ dot (negVec s.normal) c.normal := by
  unfold textureFor
  rw [if_neg (by simpa using hs)]
  rcases nearer_best (skip := skip) (n := s.normal) (i := i) sides.zipIdx none with ⟨_, b, _⟩ | ⟨r, a, b, _, f⟩
  · obtain ⟨j, c, h1, h2, h3⟩ := h
    rcases b (c, j) (List.mem_zipIdx_iff_getElem?.2 h1) with h | h
    · exact absurd h h2
    · exact absurd h h3
  · rw [a]
    simp only
    rcases b with b | ⟨c, hc, c1, c2, c3, c4⟩
    · cases b
    · refine ⟨c.2, c.1, List.mem_zipIdx_iff_getElem?.1 hc, c1, c2, c3.symm, ?_⟩
      intro k d hd x y
      rw [c4]
      exact f (d, k) (List.mem_zipIdx_iff_getElem?.2 hd) x y

theorem textureFor_or {skip dflt : String} {sides : List (TSide K)} {i : Nat} {s : TSide K} :
    textureFor skip dflt sides s i = s.tex ∧ s.tex ≠ skip ∨
    s.tex = skip ∧ ((∃ c ∈ sides, c.tex ≠ skip ∧ textureFor skip dflt sides s i = c.tex) ∨
      (textureFor skip dflt sides s i = dflt ∧ ∀ (j : Nat) (c : TSide K), sides[j]? = some c → j = i ∨ c.tex = skip)) := by
  by_cases hs : s.tex = skip
  · right
    refine ⟨hs, ?_⟩
    by_cases h : ∃ j c, sides[j]? = some c ∧ j ≠ i ∧ c.tex ≠ skip
    · obtain ⟨j, c, h1, _, h3, h4, _⟩ := fill_opposite (dflt := dflt) hs h
      exact Or.inl ⟨c, List.mem_of_getElem? h1, h3, h4⟩
    · right
      push Not at h
      constructor
      · unfold textureFor
        rw [if_neg (by simpa using hs)]
        rcases nearer_best (skip := skip) (n := s.normal) (i := i) sides.zipIdx none with ⟨_, _, d⟩ | ⟨r, a, b, _, _⟩
        · rw [d]
        · rcases b with b | ⟨c, hc, c1, c2, _, _⟩
          · cases b
          · exact absurd (h c.2 c.1 (List.mem_zipIdx_iff_getElem?.1 hc) c1) c2
      · intro j c hj
        by_cases hji : j = i
        · exact Or.inl hji
        · exact Or.inr (h j c hj hji)
  · left
    refine ⟨?_, hs⟩
    unfold textureFor
    rw [if_pos hs]

/-- The state of the loop. -/
theorem fillLoop_spec {skip dflt : String} (T : String → Prop) :
    ∀ (rest done : List (TSide K)), (∀ s ∈ done, s.tex ≠ skip ∧ T s.tex) → (∀ s ∈ rest, s.tex ≠ skip → T s.tex) →
      dflt ≠ skip → ((∀ s ∈ done ++ rest, s.tex = skip) → T dflt) →
      ∃ new, fillLoop skip dflt done rest = done ++ new ∧ new.map (·.normal) = rest.map (·.normal) ∧
        (∀ s ∈ new, s.tex ≠ skip ∧ T s.tex) ∧ ∀ (i : Nat) (s : TSide K), rest[i]? = some s → s.tex ≠ skip → new[i]? = some s := by
  intro rest
  induction rest with
  | nil => intro done _ _ _ _; exact ⟨[], by simp [fillLoop], rfl, by simp, by simp⟩
  | cons s rest ih =>
    intro done hdone hrest hd hT
    simp only [fillLoop]
    have hnew : textureFor skip dflt (done ++ s :: rest) s done.length ≠ skip ∧
        T (textureFor skip dflt (done ++ s :: rest) s done.length) := by
      rcases textureFor_or (skip := skip) (dflt := dflt) (sides := done ++ s :: rest) (i := done.length) (s := s) with
        ⟨e, h⟩ | ⟨hs, ⟨c, hc, h1, h2⟩ | ⟨e, h⟩⟩
      · rw [e]
        exact ⟨h, hrest s List.mem_cons_self h⟩
      · rw [h2]
        refine ⟨h1, ?_⟩
        rcases List.mem_append.1 hc with hc | hc
        · exact (hdone c hc).2
        · exact hrest c hc h1
      · rw [e]
        refine ⟨hd, hT ?_⟩
        intro c hc
        obtain ⟨j, hj⟩ := List.getElem?_of_mem hc
        rcases h j c hj with hji | hji
        · rw [hji, List.getElem?_append_right (le_refl _), Nat.sub_self] at hj
          simp only [List.getElem?_cons_zero, Option.some.injEq] at hj
          rw [← hj]; exact hs
        · exact hji
    obtain ⟨new, e1, e2, e3, e4⟩ := ih (done ++ [{ s with tex := textureFor skip dflt (done ++ s :: rest) s done.length }])
      (by
        intro c hc
        rcases List.mem_append.1 hc with hc | hc
        · exact hdone c hc
        · rw [List.mem_singleton] at hc; rw [hc]; exact hnew)
      (fun c hc => hrest c (List.mem_cons_of_mem _ hc)) hd (by
        intro h
        exfalso
        exact hnew.1 (h { s with tex := textureFor skip dflt (done ++ s :: rest) s done.length } (by simp)))
    refine ⟨{ s with tex := textureFor skip dflt (done ++ s :: rest) s done.length } :: new, by rw [e1]; simp, by simp [e2], ?_, ?_⟩
    · intro c hc
      rcases List.mem_cons.1 hc with rfl | hc
      · exact hnew
      · exact e3 c hc
    · intro i c hi hc
      cases i with
      | zero =>
        simp only [List.getElem?_cons_zero, Option.some.injEq] at hi ⊢
        subst hi
        unfold textureFor
        rw [if_pos hc]
      | succ i => exact e4 i c (by simpa using hi) hc

/-- C168: no side is left without a texture; a side that has one keeps it; the others get one of a side of the brush, or the
default if there is none. -/
theorem fill_textures {skip dflt : String} (hd : dflt ≠ skip) (sides : List (TSide K)) :
    (fillTextures skip dflt sides).map (·.normal) = sides.map (·.normal) ∧
    (∀ (i : Nat) (s : TSide K), sides[i]? = some s → s.tex ≠ skip → (fillTextures skip dflt sides)[i]? = some s) ∧
    ∀ s ∈ fillTextures skip dflt sides, s.tex ≠ skip ∧
      ((∃ c ∈ sides, c.tex = s.tex) ∨ (s.tex = dflt ∧ ∀ c ∈ sides, c.tex = skip)) := by
  obtain ⟨new, e1, e2, e3, e4⟩ := fillLoop_spec (skip := skip) (dflt := dflt)
    (fun t => (∃ c ∈ sides, c.tex = t) ∨ (t = dflt ∧ ∀ c ∈ sides, c.tex = skip)) sides [] (by simp)
    (fun s hs _ => Or.inl ⟨s, hs, rfl⟩) hd (fun h => Or.inr ⟨rfl, by simpa using h⟩)
  unfold fillTextures
  rw [e1, List.nil_append]
  exact ⟨e2, e4, e3⟩

example : fillTextures (K := ℚ) "skip" "d" [⟨⟨0, 0, 1⟩, "top"⟩, ⟨⟨0, 0, -1⟩, "skip"⟩, ⟨⟨1, 0, 0⟩, "side"⟩, ⟨⟨-1, 0, 0⟩, "skip"⟩] =
    [⟨⟨0, 0, 1⟩, "top"⟩, ⟨⟨0, 0, -1⟩, "top"⟩, ⟨⟨1, 0, 0⟩, "side"⟩, ⟨⟨-1, 0, 0⟩, "side"⟩] := by decide +kernel

/-! ## Keys of entities -/

theorem keyStep_printed {atoi : String → Int} {vec : String → Vec K} {portal : Bool} :
    ∀ (dict : List (String × String)) (st : Keys K), ∃ sub, (dict.foldl (keyStep atoi vec portal) st).printed = st.printed ++ sub ∧
      sub.Sublist dict ∧ ∀ kv ∈ dict, kv ∈ sub ∨ (kv.1 = "model" ∧ kv.2.toList.head? = some '*') ∨
        (portal = true ∧ kv.1 = "style") ∨ kv.1 = "origin" := by
  intro dict
  induction dict with
  | nil => intro st; exact ⟨[], by simp, List.Sublist.refl _, by simp⟩
  | cons kv dict ih =>
    intro st
    rw [List.foldl_cons]
    obtain ⟨sub, h1, h2, h3⟩ := ih (keyStep atoi vec portal st kv)
    have gone : (keyStep atoi vec portal st kv).printed = st.printed →
        ((kv.1 = "model" ∧ kv.2.toList.head? = some '*') ∨ (portal = true ∧ kv.1 = "style") ∨ kv.1 = "origin") →
        ∃ sub, (List.foldl (keyStep atoi vec portal) (keyStep atoi vec portal st kv) dict).printed = st.printed ++ sub ∧
          sub.Sublist (kv :: dict) ∧ ∀ kv' ∈ kv :: dict, kv' ∈ sub ∨ (kv'.1 = "model" ∧ kv'.2.toList.head? = some '*') ∨
            (portal = true ∧ kv'.1 = "style") ∨ kv'.1 = "origin" := by
      intro e hg
      refine ⟨sub, by rw [h1, e], h2.cons _, ?_⟩
      intro kv' hkv
      rcases List.mem_cons.1 hkv with rfl | hkv
      · exact Or.inr hg
      · exact h3 kv' hkv
    by_cases c1 : kv.1 = "model" ∧ kv.2.toList.head? = some '*'
    · exact gone (by unfold keyStep; rw [if_pos c1]) (Or.inl c1)
    by_cases c2 : portal = true ∧ kv.1 = "style"
    · exact gone (by unfold keyStep; rw [if_neg c1, if_pos c2]) (Or.inr (Or.inl c2))
    by_cases c3 : st.modelNum > 0 ∧ kv.1 = "origin"
    · exact gone (by unfold keyStep; rw [if_neg c1, if_neg c2, if_pos c3]; split_ifs <;> rfl) (Or.inr (Or.inr c3.2))
    · have e : (keyStep atoi vec portal st kv).printed = st.printed ++ [kv] := by
        unfold keyStep; rw [if_neg c1, if_neg c2, if_neg c3]
      refine ⟨kv :: sub, by rw [h1, e]; simp, h2.cons_cons _, ?_⟩
      intro kv' hkv
      rcases List.mem_cons.1 hkv with rfl | hkv
      · exact Or.inl List.mem_cons_self
      · rcases h3 kv' hkv with h | h
        · exact Or.inl (List.mem_cons_of_mem _ h)
        · exact Or.inr h

theorem entityKeys_ok {atoi : String → Int} {vec : String → Vec K} {portal isWorld : Bool} {dict : List (String × String)}
    {k : Keys K} (h : entityKeys atoi vec portal isWorld dict = .ok (some k)) : ∃ c, findKey dict "classname" = some c ∧
      k = dict.foldl (keyStep atoi vec (portal && c == "func_areaportal")) ⟨[], if isWorld then 0 else -1, none⟩ := by
  unfold entityKeys at h
  split at h
  · cases h
  · rename_i c hc
    by_cases hg : c = "func_group"
    · rw [if_pos hg] at h; cases h
    · rw [if_neg hg] at h
      injection h with h
      injection h with h
      exact ⟨c, hc, h.symm⟩

/-- C169: the keys that are printed are keys of the entity in their order, and none is missing but for the number of the
model, an origin, and the style of an area portal. -/
theorem keys_kept {atoi : String → Int} {vec : String → Vec K} {portal isWorld : Bool} {dict : List (String × String)}
    {k : Keys K} (h : entityKeys atoi vec portal isWorld dict = .ok (some k)) :
    k.printed.Sublist dict ∧ ∀ kv ∈ dict, kv ∈ k.printed ∨ (kv.1 = "model" ∧ kv.2.toList.head? = some '*') ∨
      (portal = true ∧ findKey dict "classname" = some "func_areaportal" ∧ kv.1 = "style") ∨ kv.1 = "origin" := by
  obtain ⟨c, hc, rfl⟩ := entityKeys_ok h
  obtain ⟨sub, h1, h2, h3⟩ := keyStep_printed (atoi := atoi) (vec := vec) (portal := portal && c == "func_areaportal") dict
    ⟨[], if isWorld then 0 else -1, none⟩
  rw [h1, List.nil_append]
  refine ⟨h2, ?_⟩
  intro kv hkv
  rcases h3 kv hkv with h | h | ⟨h, h'⟩ | h
  · exact Or.inl h
  · exact Or.inr (Or.inl h)
  · rw [Bool.and_eq_true, beq_iff_eq] at h
    exact Or.inr (Or.inr (Or.inl ⟨h.1, by rw [hc, h.2], h'⟩))
  · exact Or.inr (Or.inr (Or.inr h))

/-- A dictionary without a model: the number of the model stays as it is. -/
theorem keyStep_noModel {atoi : String → Int} {vec : String → Vec K} {portal : Bool} :
    ∀ (dict : List (String × String)) (st : Keys K), (∀ kv ∈ dict, kv.1 = "model" → kv.2.toList.head? ≠ some '*') →
      (dict.foldl (keyStep atoi vec portal) st).modelNum = st.modelNum ∧
      (st.modelNum ≤ 0 → (dict.foldl (keyStep atoi vec portal) st).offset = st.offset ∧
        ∀ kv ∈ dict, kv.1 = "origin" → kv ∈ (dict.foldl (keyStep atoi vec portal) st).printed) := by
  intro dict
  induction dict with
  | nil => intro st _; simp
  | cons kv dict ih =>
    intro st hm
    rw [List.foldl_cons]
    have c1 : ¬ (kv.1 = "model" ∧ kv.2.toList.head? = some '*') := fun h => hm kv List.mem_cons_self h.1 h.2
    have hmod : (keyStep atoi vec portal st kv).modelNum = st.modelNum := by
      unfold keyStep
      rw [if_neg c1]
      split_ifs <;> rfl
    obtain ⟨i1, i2⟩ := ih (keyStep atoi vec portal st kv) (fun kv' h' => hm kv' (List.mem_cons_of_mem _ h'))
    refine ⟨by rw [i1, hmod], ?_⟩
    intro h0
    have c3 : ¬ (st.modelNum > 0 ∧ kv.1 = "origin") := fun h => by omega
    obtain ⟨j1, j2⟩ := i2 (by rw [hmod]; exact h0)
    constructor
    · rw [j1]
      unfold keyStep
      rw [if_neg c1, if_neg c3]
      split_ifs <;> rfl
    · intro kv' hkv ho
      rcases List.mem_cons.1 hkv with rfl | hkv
      · obtain ⟨sub, e, _⟩ := keyStep_printed (atoi := atoi) (vec := vec) (portal := portal) dict (keyStep atoi vec portal st kv')
        rw [e]
        apply List.mem_append_left
        unfold keyStep
        rw [if_neg c1, if_neg (fun h => absurd (ho.symm.trans h.2) (by decide +kernel)), if_neg c3]
        simp
      · exact j2 kv' hkv ho

/-- C169: an entity without brushes keeps its origin. -/
theorem point_keeps_origin {atoi : String → Int} {vec : String → Vec K} {portal isWorld : Bool}
    {dict : List (String × String)} {k : Keys K} (h : entityKeys atoi vec portal isWorld dict = .ok (some k))
    (hm : ∀ kv ∈ dict, kv.1 = "model" → kv.2.toList.head? ≠ some '*') :
    k.modelNum = (if isWorld then 0 else -1) ∧ k.offset = none ∧ ∀ kv ∈ dict, kv.1 = "origin" → kv ∈ k.printed := by
  obtain ⟨c, hc, rfl⟩ := entityKeys_ok h
  obtain ⟨h1, h2⟩ := keyStep_noModel (atoi := atoi) (vec := vec) (portal := portal && c == "func_areaportal") dict
    ⟨[], if isWorld then 0 else -1, none⟩ hm
  refine ⟨h1, h2 ?_⟩
  cases isWorld <;> simp

/-- C169: the origin of an entity with brushes is where its brushes are moved, if it comes after the number of the model.
Missing: an origin that comes before it (`origin_before_model`). -/
theorem origin_moves_partial {atoi : String → Int} {vec : String → Vec K} {portal isWorld : Bool}
    {a b c : List (String × String)} {num org : String} {k : Keys K} (hnum : num.toList.head? = some '*')
    (hpos : atoi (String.ofList num.toList.tail) > 0) (horg : vec org ≠ ⟨0, 0, 0⟩)
    (hb : ∀ kv ∈ b ++ c, kv.1 ≠ "model" ∧ kv.1 ≠ "origin")
    (h : entityKeys atoi vec portal isWorld (a ++ ("model", num) :: b ++ ("origin", org) :: c) = .ok (some k)) :
    k.modelNum = atoi (String.ofList num.toList.tail) ∧ k.offset = some (vec org) := by
  have step : ∀ (p : Bool) (l : List (String × String)) (st : Keys K), (∀ kv ∈ l, kv.1 ≠ "model" ∧ kv.1 ≠ "origin") →
      (l.foldl (keyStep atoi vec p) st).modelNum = st.modelNum ∧ (l.foldl (keyStep atoi vec p) st).offset = st.offset := by
    intro p l
    induction l with
    | nil => intro st _; exact ⟨rfl, rfl⟩
    | cons kv l ih =>
      intro st hl
      rw [List.foldl_cons]
      have hk := hl kv List.mem_cons_self
      obtain ⟨i1, i2⟩ := ih (keyStep atoi vec p st kv) (fun kv' h' => hl kv' (List.mem_cons_of_mem _ h'))
      rw [i1, i2]
      unfold keyStep
      rw [if_neg (fun h => hk.1 h.1), if_neg (c := st.modelNum > 0 ∧ kv.1 = "origin") (fun h => hk.2 h.2)]
      split_ifs <;> exact ⟨rfl, rfl⟩
  obtain ⟨cn, hc, rfl⟩ := entityKeys_ok h
  generalize (portal && cn == "func_areaportal") = p
  rw [List.foldl_append, List.foldl_cons, List.foldl_append, List.foldl_cons]
  generalize List.foldl (keyStep atoi vec p) ⟨[], if isWorld then 0 else -1, none⟩ a = st
  have e1 : keyStep atoi vec p st ("model", num) = { st with modelNum := atoi (String.ofList num.toList.tail) } := by
    unfold keyStep; rw [if_pos ⟨rfl, hnum⟩]
  rw [e1]
  obtain ⟨b1, b2⟩ := step p b { st with modelNum := atoi (String.ofList num.toList.tail) }
    (fun kv h' => hb kv (List.mem_append_left _ h'))
  generalize List.foldl (keyStep atoi vec p) { st with modelNum := atoi (String.ofList num.toList.tail) } b = st2 at b1 b2 ⊢
  have e2 : keyStep atoi vec p st2 ("origin", org) = { st2 with offset := some (vec org) } := by
    unfold keyStep
    rw [if_neg (fun h => absurd (show "origin" = "model" from h.1) (by decide +kernel)),
      if_neg (fun h => absurd (show "origin" = "style" from h.2) (by decide +kernel)), if_pos ⟨by rw [b1]; exact hpos, rfl⟩,
      if_pos horg]
  rw [e2]
  obtain ⟨c1, c2⟩ := step p c { st2 with offset := some (vec org) } (fun kv h' => hb kv (List.mem_append_right _ h'))
  rw [c1, c2]
  exact ⟨b1, rfl⟩

def exAtoi (s : String) : Int := if s = "1" then 1 else 0
def exVec (s : String) : Vec ℚ := if s = "8 0 0" then ⟨8, 0, 0⟩ else ⟨0, 0, 0⟩

/-- C169 does not hold for all orders of the keys: the same door with its origin behind or before its model is moved or
not. -/
theorem origin_before_model :
    (∃ k, entityKeys exAtoi exVec false false [("classname", "func_door"), ("model", "*1"), ("origin", "8 0 0")] = .ok (some k) ∧
      k.offset = some ⟨8, 0, 0⟩ ∧ k.printed = [("classname", "func_door")]) ∧
    ∃ k, entityKeys exAtoi exVec false false [("classname", "func_door"), ("origin", "8 0 0"), ("model", "*1")] = .ok (some k) ∧
      k.offset = none ∧ k.printed = [("classname", "func_door"), ("origin", "8 0 0")] := by
  refine ⟨⟨⟨[("classname", "func_door")], 1, some ⟨8, 0, 0⟩⟩, ?_, rfl, rfl⟩,
    ⟨⟨[("classname", "func_door"), ("origin", "8 0 0")], 1, none⟩, ?_, rfl, rfl⟩⟩ <;> rfl

/-- C169: an entity without a class name is undefined behaviour. -/
theorem missing_classname_undefined {atoi : String → Int} {vec : String → Vec K} {portal isWorld : Bool}
    {dict : List (String × String)} : entityKeys atoi vec portal isWorld dict = .ub ↔ ∀ kv ∈ dict, kv.1 ≠ "classname" := by
  unfold entityKeys findKey
  constructor
  · intro h kv hkv e
    cases hf : dict.find? fun p => decide (p.1 = "classname") with
    | none => exact absurd e (by simpa using List.find?_eq_none.1 hf kv hkv)
    | some p =>
      rw [hf] at h
      simp only [Option.map_some] at h
      split_ifs at h
  · intro h
    have : dict.find? (fun p => decide (p.1 = "classname")) = none := List.find?_eq_none.2 (by simpa using h)
    rw [this]
    rfl

/-- The brush of an area portal, from a place on. -/
theorem portalBrush_spec : ∀ (l : List Bool) (i n k : Nat), 1 ≤ n →
    (portalBrush l i n = some k ↔ ∃ j, k = i + j ∧ l[j]? = some true ∧ (l.take j).count true + 1 = n) := by
  intro l
  induction l with
  | nil => intro i n k _; simp [portalBrush]
  | cons a l ih =>
    intro i n k hn
    simp only [portalBrush]
    cases a with
    | true =>
      simp only [if_true]
      by_cases h1 : n = 1
      · rw [if_pos h1]
        constructor
        · intro h
          cases h
          exact ⟨0, by simp, by simp, by simp [h1]⟩
        · rintro ⟨j, rfl, hj, hc⟩
          cases j with
          | zero => simp
          | succ j => simp [h1] at hc
      · rw [if_neg h1, if_neg (by omega), ih (i + 1) (n - 1) k (by omega)]
        constructor
        · rintro ⟨j, rfl, hj, hc⟩
          exact ⟨j + 1, by omega, by simpa using hj, by simp; omega⟩
        · rintro ⟨j, rfl, hj, hc⟩
          cases j with
          | zero => simp at hc; omega
          | succ j => exact ⟨j, by omega, by simpa using hj, by simp at hc; omega⟩
    | false =>
      simp only [Bool.false_eq_true, if_false]
      rw [ih (i + 1) n k hn]
      constructor
      · rintro ⟨j, rfl, hj, hc⟩
        exact ⟨j + 1, by omega, by simpa using hj, by simpa using hc⟩
      · rintro ⟨j, rfl, hj, hc⟩
        cases j with
        | zero => simp at hj
        | succ j => exact ⟨j, by omega, by simpa using hj, by simpa using hc⟩

/-- C169: an area portal with the style `n` gets the `n`-th brush that is an area portal. -/
theorem portal_brush {l : List Bool} {n k : Nat} (hn : 1 ≤ n) :
    portalBrush l 0 n = some k ↔ l[k]? = some true ∧ (l.take k).count true + 1 = n := by
  rw [portalBrush_spec l 0 n k hn]
  constructor
  · rintro ⟨j, rfl, h⟩
    simpa using h
  · intro h
    exact ⟨k, by omega, h⟩

example : portalBrush [false, true, false, true] 0 2 = some 3 := by decide +kernel

end Verif.Decompile
