import Verif.PortalSides.Props
import Verif.Contents.Model

/-!
A face that is left out although there is a side for it (C190), and cases that meet the hypotheses of `Props`.
-/

namespace Verif.PortalSides

open Verif.Geom Verif.Contents

/-- Quake. -/
def q1 : Game Contents := ⟨Q1.portalVisibleContents, Q1.isEmpty, Q1.portalGeneratesFace⟩

/-- A `func_detail_fence` with `_noclipfaces`. -/
def fence : Contents := Q1.detailFence ||| SUPPRESS_CLIPPING

theorem fence_visible : q1.visible fence fence = WINDOW := by decide +kernel
theorem fence_seen : q1.empty WINDOW = false := by decide +kernel
theorem fence_out : q1.generates WINDOW fence false = true := by decide +kernel
theorem fence_inn : q1.generates WINDOW fence true = false := by decide +kernel

/-- A portal in the plane z = 0, one point of it will do. -/
def flat : List (Vec ℚ) := [⟨0, 0, 0⟩]
def up : Node ℚ := ⟨0, ⟨0, 0, 1⟩⟩

/-- Two sides that lie along it, but not exactly. -/
def nearly : Side ℚ := ⟨2, ⟨⟨3 / 5, 0, 4 / 5⟩, 0⟩, false, some 7⟩
def roughly : Side ℚ := ⟨4, ⟨⟨4 / 5, 0, 3 / 5⟩, 0⟩, false, some 8⟩

def touching : Bool → Leaf Contents ℚ
  | false => ⟨fence, [⟨fence, [nearly]⟩]⟩
  | true => ⟨fence, [⟨fence, [roughly]⟩]⟩

theorem touching_found : ∃ r, findSides q1 flat up touching = .ok (some r) ∧ r false = none ∧ r true = some nearly := by
  have e1 : offPlane flat nearly.plane ≤ 1 / 10 := by
    rw [offPlane_le _ _ (by norm_num)]
    intro v hv
    rw [flat, List.mem_singleton] at hv
    subst hv
    norm_num [nearly, Plane.distTo, dot]
  have e2 : offPlane flat roughly.plane ≤ 1 / 10 := by
    rw [offPlane_le _ _ (by norm_num)]
    intro v hv
    rw [flat, List.mem_singleton] at hv
    subst hv
    norm_num [roughly, Plane.distTo, dot]
  have m1 : match' up nearly = 4 / 5 := by norm_num [match', up, nearly, dot, abs_of_pos]
  have m2 : match' up roughly = 3 / 5 := by norm_num [match', up, roughly, dot, abs_of_pos]
  have s1 : ∀ st, scanSides flat up false true false [nearly] st = .ok (takeBest up false true false nearly st) := by
    intro st
    unfold scanSides
    rw [if_neg (by decide), if_neg (not_lt.2 e1), if_neg (by decide)]
    rfl
  have s2 : ∀ st, scanSides flat up true true false [roughly] st = .ok (takeBest up true true false roughly st) := by
    intro st
    unfold scanSides
    rw [if_neg (by decide), if_neg (not_lt.2 e2), if_neg (by decide)]
    rfl
  have t1 : takeBest up false true false nearly ⟨fun _ => none, fun _ => none, 0⟩
      = ⟨put (fun _ => none) true (some nearly), fun _ => none, 4 / 5⟩ := by
    unfold takeBest
    rw [m1, if_pos (by norm_num)]
    rfl
  have t2 : takeBest up true true false roughly ⟨put (fun _ => none) true (some nearly), fun _ => none, 4 / 5⟩
      = ⟨put (fun _ => none) true (some nearly), fun _ => none, 4 / 5⟩ := by
    unfold takeBest
    rw [m2, if_neg (by norm_num)]
  refine ⟨put (fun _ => none) true (some nearly), ?_, rfl, rfl⟩
  unfold findSides
  have hv : q1.visible (touching false).contents (touching true).contents = WINDOW := fence_visible
  simp only
  rw [hv, fence_seen, if_neg (by decide)]
  have b1 : scanBrushes q1 WINDOW flat up false (touching false).brushes.reverse ⟨fun _ => none, fun _ => none, 0⟩
      = .ok ⟨put (fun _ => none) true (some nearly), fun _ => none, 4 / 5⟩ := by
    change scanBrushes q1 WINDOW flat up false [⟨fence, [nearly]⟩] _ = _
    unfold scanBrushes
    simp only [fence_out, fence_inn]
    rw [if_neg (by decide), s1, t1]
    rfl
  have b2 : scanBrushes q1 WINDOW flat up true (touching true).brushes.reverse
      ⟨put (fun _ => none) true (some nearly), fun _ => none, 4 / 5⟩
      = .ok ⟨put (fun _ => none) true (some nearly), fun _ => none, 4 / 5⟩ := by
    change scanBrushes q1 WINDOW flat up true [⟨fence, [roughly]⟩] _ = _
    unfold scanBrushes
    simp only [fence_out, fence_inn]
    rw [if_neg (by decide), s2, t2]
    rfl
  rw [b1, Outcome.ok_bind, b2, Outcome.ok_bind]
  congr 2

theorem roughly_along : Along flat (⟨fence, [roughly]⟩ : Brush Contents ℚ) roughly := by
  refine ⟨List.mem_singleton_self _, rfl, ?_⟩
  intro v hv
  rw [flat, List.mem_singleton] at hv
  subst hv
  norm_num [roughly, Plane.distTo, dot]

theorem roughly_makes : MakesFace q1 touching false true ⟨fence, [roughly]⟩ := by
  refine ⟨List.mem_singleton_self _, ?_⟩
  change q1.generates (q1.visible fence fence) fence (decide (false = true)) = true
  rw [fence_visible]
  exact fence_out

theorem roughly_close : Close up roughly = 3 / 5 := by norm_num [Close, up, roughly, dot, abs_of_pos]

/-- Two fences with `_noclipfaces` touch and make a face each. The closest side of one of them is less close to the
portal than that of the other: its face is left out, although there is a side for it. -/
theorem side_missed : ∃ (w : List (Vec ℚ)) (n : Node ℚ) (leaf : Bool → Leaf Contents ℚ) (r : Bool → Option (Side ℚ)),
    n.num % 2 = 0 ∧ findSides q1 w n leaf = .ok (some r) ∧
      (∃ j b s, MakesFace q1 leaf false j b ∧ Along w b s ∧ 0 < Close n s) ∧ r false = none := by
  obtain ⟨r, h1, h2, -⟩ := touching_found
  refine ⟨flat, up, touching, r, rfl, h1, ⟨true, _, roughly, roughly_makes, roughly_along, ?_⟩, h2⟩
  rw [roughly_close]
  norm_num

theorem touching_no_exact (i j : Bool) (b : Brush Contents ℚ) : ¬ Exact q1 flat up touching i j b := by
  rintro ⟨⟨hb, -⟩, s, ⟨hs, -⟩, ho⟩
  cases j <;> (cases List.mem_singleton.1 hb; cases List.mem_singleton.1 hs; rcases ho with ho | ho <;> cases ho)

/-- Non-vacuity of `side_from_brush` and `side_closest`: the hypotheses hold of the two fences. -/
example : ∃ r, findSides q1 flat up touching = .ok (some r) ∧ r true = some nearly ∧
    (∀ i j b, ¬ Exact q1 flat up touching i j b) ∧
    ∃ i j b s, MakesFace q1 touching i j b ∧ Along flat b s ∧ 0 < Close up s := by
  obtain ⟨r, h1, -, h3⟩ := touching_found
  exact ⟨r, h1, h3, touching_no_exact,
    ⟨false, true, _, roughly, roughly_makes, roughly_along, by rw [roughly_close]; norm_num⟩⟩

/-- A side on the plane of the node: a floor below an empty leaf. -/
def floor : Side ℚ := ⟨0, ⟨⟨0, 0, 1⟩, 0⟩, false, some 5⟩

def room : Bool → Leaf Contents ℚ
  | false => ⟨EMPTY, []⟩
  | true => ⟨SOLID, [⟨SOLID, [floor]⟩]⟩

theorem room_visible : q1.visible EMPTY SOLID = SOLID := by decide +kernel
theorem room_seen : q1.empty SOLID = false := by decide +kernel
theorem room_out : q1.generates SOLID SOLID false = true := by decide +kernel
theorem room_inn : q1.generates SOLID SOLID true = false := by decide +kernel

theorem floor_along : Along flat (⟨SOLID, [floor]⟩ : Brush Contents ℚ) floor := by
  refine ⟨List.mem_singleton_self _, rfl, ?_⟩
  intro v hv
  rw [flat, List.mem_singleton] at hv
  subst hv
  norm_num [floor, Plane.distTo, dot]

theorem floor_makes : MakesFace q1 room false true ⟨SOLID, [floor]⟩ := by
  refine ⟨List.mem_singleton_self _, ?_⟩
  change q1.generates (q1.visible EMPTY SOLID) SOLID (decide (false = true)) = true
  rw [room_visible]
  exact room_out

/-- Non-vacuity of `side_exact`, `side_found_partial` and `side_no_assert`: a floor of a room. -/
theorem room_found : ∃ r, findSides q1 flat up room = .ok (some r) ∧ r false = some floor := by
  obtain ⟨r, hr⟩ := side_no_assert q1 flat up rfl room (by
    intro i j b s hf ha ho
    obtain ⟨hb, -⟩ := hf
    cases j
    · cases hb
    · cases List.mem_singleton.1 hb
      cases List.mem_singleton.1 ha.1
      rfl)
  cases r with
  | none =>
    rw [side_none] at hr
    change q1.empty (q1.visible EMPTY SOLID) = true at hr
    rw [room_visible, room_seen] at hr
    cases hr
  | some r =>
    refine ⟨r, hr, ?_⟩
    obtain ⟨j, pre, b, post, s, h1, h2, h3, h4, h5, -⟩ := side_exact q1 flat up rfl room r hr false
      ⟨true, _, floor_makes, floor, floor_along, Or.inl rfl⟩
    obtain ⟨hb, -⟩ := h2
    cases j
    · cases hb
    · cases List.mem_singleton.1 hb
      cases List.mem_singleton.1 h3.1
      exact h5

example : (∀ i' j b, MakesFace q1 room i' j b → MakesFace q1 room false j b) ∧
    ∃ j b s, MakesFace q1 room false j b ∧ Along flat b s ∧ 0 < Close up s := by
  refine ⟨?_, true, _, floor, floor_makes, floor_along, by norm_num [Close, up, floor, dot]⟩
  intro i' j b hf
  obtain ⟨hb, -⟩ := hf
  cases j
  · cases hb
  · cases List.mem_singleton.1 hb
    exact floor_makes

/-- The two leafs of the room, and the portal between them. -/
def leafs : Nat → Leaf Contents ℚ := fun l => if l = 0 then room false else room true
def ports : Nat → Portal ℚ := fun _ => ⟨fun i => if i then 1 else 0, flat, some up⟩

/-- Non-vacuity of `sides_marked`: of the sides 5, 6 and 9 the floor is found, and 9 is a hint. -/
example : ∃ v, markVisible q1 leafs ports [(0, [0]), (1, [0])] (· == 9) [some 5, none, some 6, some 9] (fun _ => true) = .ok v ∧
    v 5 = true ∧ v 6 = false ∧ v 9 = true := by
  obtain ⟨r, hr, hf⟩ := room_found
  have hl : (fun i : Bool => leafs ((ports 0).leaf i)) = room := by
    funext i
    cases i <;> rfl
  have hr' : findSides q1 (ports 0).winding up (fun i : Bool => leafs ((ports 0).leaf i)) = .ok (some r) := by
    rw [hl]
    exact hr
  have h0 : q1.empty (leafs 0).contents = true := by decide +kernel
  have h1 : q1.empty (leafs 1).contents = false := by decide +kernel
  have hm : ∃ v, markVisible q1 leafs ports [(0, [0]), (1, [0])] (· == 9) [some 5, none, some 6, some 9] (fun _ => true) = .ok v := by
    unfold markVisible markLeafs
    rw [h0, if_pos rfl]
    unfold markLeafs
    rw [h1, if_neg (by decide)]
    unfold markPortals markPortal
    simp only [show (ports 0).node = some up from rfl]
    rw [hr']
    exact ⟨_, rfl⟩
  obtain ⟨v, hv⟩ := hm
  refine ⟨v, hv, ?_, ?_, ?_⟩
  · rw [sides_marked q1 leafs ports _ _ _ _ v hv 5 (by simp)]
    exact Or.inr ⟨1, [0], 0, by simp, h1, by simp, up, r, false, floor, rfl, hr', hf, rfl⟩
  · rw [← Bool.not_eq_true, sides_marked q1 leafs ports _ _ _ _ v hv 6 (by simp)]
    rintro (h | ⟨l, around, p, -, -, -, n, r', i, s, hn, hr2, hs, hx⟩)
    · cases h
    · cases hn
      have hp : (fun i : Bool => leafs ((ports p).leaf i)) = room := hl
      rw [hp] at hr2
      obtain ⟨j, b, hf2, ha⟩ := side_from_brush q1 _ up room r' hr2 i s hs
      obtain ⟨hb, -⟩ := hf2
      cases j
      · cases hb
      · cases List.mem_singleton.1 hb
        cases List.mem_singleton.1 ha.1
        cases hx
  · rw [sides_marked q1 leafs ports _ _ _ _ v hv 9 (by simp)]
    exact Or.inl rfl

end Verif.PortalSides
