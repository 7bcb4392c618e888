import Verif.Surfaces.ChopLemmas
import Mathlib.Algebra.Order.Ring.Rat
import Mathlib.Algebra.Field.Rat
import Mathlib.Data.Rat.Floor
import Mathlib.Tactic.NormNum

/-! Faces are cut to the size of a lightmap: the cutting ends, the pieces are small, and together they are the face. -/

namespace Verif.Surfaces

open Verif.Geom Verif.Geom.Spec Spec

set_option linter.unusedSectionVars false

section
variable {K : Type} [Field K] [LinearOrder K] [IsStrictOrderedRing K] [FloorRing K]

/-- The numbers are usual for a direction of the texture: `-subdivide` leaves more than 16 units and the tolerance, and the
tolerance, in units of the texture, is at most 14. -/
structure Usual (len : Vec K → K) (eps : K) (n : Int) (v : Vec K) : Prop where
  length : IsLength len v
  small : eps * len v ≤ 14
  big : eps * len v < n - 16

theorem Usual.step {len : Vec K → K} {eps : K} (he : 0 ≤ eps) {n : Int} {v : Vec K} (h : Usual len eps n v) :
    StepOk len eps n v := ⟨he, h.length, h.small, h.big⟩

variable {len : Vec K → K} {eps : K} {setting : Int} {tex : Tex K}

/-- The cutting of a face ends. -/
theorem subdivide_ends (he : 0 ≤ eps) (hs : Usual len eps (subdivOf setting tex.lmshift) tex.s)
    (ht : Usual len eps (subdivOf setting tex.lmshift) tex.t) {f : Face K} (hb : BallOk f)
    (hc : ∃ n k, ConvexRing n k f.w) :
    ∃ n l, ∀ fuel, n ≤ fuel → subdivideFace len eps setting tex fuel f = some l := by
  unfold subdivideFace
  cases hx : tex.isNodraw || tex.isHint || !tex.isSubdivided with
  | true => exact ⟨0, [f], fun _ _ => rfl⟩
  | false =>
    have hb1 : ∀ g ∈ [f], BallOk g := by intro g hg; rw [List.mem_singleton.1 hg]; exact hb
    have hc1 : ∀ g ∈ [f], ∃ n k, ConvexRing n k g.w := by intro g hg; rw [List.mem_singleton.1 hg]; exact hc
    obtain ⟨l1, h1⟩ := chop_ends (hs.step he) (c := []) hb1 (le_refl _)
    generalize (List.map (rounds (_ - 16 - eps * len tex.s) tex.s) [f]).sum = n1 at h1
    have inv := chop_inv (hs.step he) hb1 hc1 (List.pairwise_singleton _ _) h1
    obtain ⟨l2, h2⟩ := chop_ends (ht.step he) (s := l1) (c := []) inv.ball (le_refl _)
    generalize (List.map (rounds (_ - 16 - eps * len tex.t) tex.t) l1).sum = n2 at h2
    refine ⟨max n1 n2, l2, fun fuel hf => ?_⟩
    simp only [Bool.false_eq_true, if_false]
    rw [chop_more (le_trans (le_max_left _ _) hf) h1]
    exact chop_more (le_trans (le_max_right _ _) hf) h2

/-- What is cut off a face: the pieces are parts of it and convex, do not overlap, and hold all of its points. In both
directions of the texture they are at most as long as asked for. Points and pieces are told apart up to the tolerance at the
cuts, of which there is one less than there are pieces. -/
theorem subdivide_pieces (he : 0 ≤ eps) (hs : Usual len eps (subdivOf setting tex.lmshift) tex.s)
    (ht : Usual len eps (subdivOf setting tex.lmshift) tex.t) {f : Face K} (hb : BallOk f)
    (hc : ∃ n k, ConvexRing n k f.w) {fuel : Nat} {l : List (Face K)}
    (h : subdivideFace len eps setting tex fuel f = some l) :
    (∀ g ∈ l, PartOf f g ∧ ∃ n k, ConvexRing n k g.w) ∧
    (tex.isNodraw = false → tex.isHint = false → tex.isSubdivided = true → ∀ g ∈ l,
      FitsIn (subdivOf setting tex.lmshift) tex.s g.w ∧ FitsIn (subdivOf setting tex.lmshift) tex.t g.w) ∧
    l.Pairwise (Apart eps) ∧
    ∃ cuts : List (Plane K), (∀ p ∈ cuts, UnitNormal p) ∧ cuts.length + 1 = l.length ∧
      ∀ q, InHull f.w q → Clear eps cuts q → ∃ g ∈ l, InHull g.w q := by
  unfold subdivideFace at h
  cases hx : tex.isNodraw || tex.isHint || !tex.isSubdivided with
  | true =>
    rw [hx] at h
    simp only [if_true, Option.some.injEq] at h
    subst h
    refine ⟨?_, ?_, List.pairwise_singleton _ _, [], by simp, rfl, ?_⟩
    · intro g hg
      rw [List.mem_singleton.1 hg]
      exact ⟨partOf_refl f, hc⟩
    · intro a b c
      rw [a, b, c] at hx
      simp at hx
    · intro q hq _
      exact ⟨f, List.mem_singleton.2 rfl, hq⟩
  | false =>
    rw [hx] at h
    simp only [Bool.false_eq_true, if_false, Option.bind_eq_some_iff] at h
    obtain ⟨l1, h1, h2⟩ := h
    have hb1 : ∀ g ∈ [f], BallOk g := by intro g hg; rw [List.mem_singleton.1 hg]; exact hb
    have hc1 : ∀ g ∈ [f], ∃ n k, ConvexRing n k g.w := by intro g hg; rw [List.mem_singleton.1 hg]; exact hc
    have i1 := chop_inv (hs.step he) hb1 hc1 (List.pairwise_singleton _ _) h1
    have i2 := chop_inv (ht.step he) i1.ball i1.conv i1.apart h2
    have parts : ∀ g ∈ l, ∃ g1 ∈ l1, PartOf f g1 ∧ PartOf g1 g := by
      intro g hg
      obtain ⟨g1, hg1, p1⟩ := i2.part g hg
      obtain ⟨g0, hg0, p0⟩ := i1.part g1 hg1
      rw [List.mem_singleton.1 hg0] at p0
      exact ⟨g1, hg1, p0, p1⟩
    refine ⟨?_, ?_, i2.apart, ?_⟩
    · intro g hg
      obtain ⟨g1, _, p0, p1⟩ := parts g hg
      exact ⟨partOf_trans p0 p1, i2.conv g hg⟩
    · intro _ _ _ g hg
      obtain ⟨g1, hg1, p0, p1⟩ := parts g hg
      exact ⟨fits_part p1 (i1.fits g1 hg1), i2.fits g hg⟩
    · obtain ⟨c1, u1, n1, v1⟩ := i1.cover
      obtain ⟨c2, u2, n2, v2⟩ := i2.cover
      refine ⟨c1 ++ c2, ?_, ?_, ?_⟩
      · intro p hp
        rcases List.mem_append.1 hp with hp | hp
        · exact u1 p hp
        · exact u2 p hp
      · simp only [List.length_append, List.nil_append, List.length_cons, List.length_nil] at n1 n2 ⊢
        omega
      · intro q hq hcl
        obtain ⟨g1, hg1, q1⟩ := v1 q ⟨f, List.mem_singleton.2 rfl, hq⟩
          (hcl.imp id fun h p hp => h p (List.mem_append_left _ hp))
        obtain ⟨g2, hg2, q2⟩ := v2 q ⟨g1, hg1, q1⟩ (hcl.imp id fun h p hp => h p (List.mem_append_right _ hp))
        exact ⟨g2, hg2, q2⟩

/-- Faces that are not drawn, hints and those that the game does not cut stay whole. -/
theorem subdivide_special {fuel : Nat} (f : Face K)
    (h : tex.isNodraw = true ∨ tex.isHint = true ∨ tex.isSubdivided = false) :
    subdivideFace len eps setting tex fuel f = some [f] := by
  unfold subdivideFace
  rw [if_pos]
  rcases h with h | h | h <;> simp [h]

/-- All faces of a node are cut, each by itself and in order. -/
theorem subdivideNode_eq {texOf : Face K → Tex K} {fuel : Nat} {L l : List (Face K)}
    (h : subdivideNode len eps setting texOf fuel L = some l) :
    ∃ ls, l = ls.flatten ∧ List.Forall₂ (fun f p => subdivideFace len eps setting (texOf f) fuel f = some p) L ls := by
  induction L generalizing l with
  | nil =>
    simp only [subdivideNode, Option.some.injEq] at h
    subst h
    exact ⟨[], rfl, .nil⟩
  | cons f L ih =>
    unfold subdivideNode at h
    split at h
    · rename_i a b ha hb
      simp only [Option.some.injEq] at h
      subst h
      obtain ⟨ls, rfl, h2⟩ := ih hb
      exact ⟨a :: ls, rfl, .cons ha h2⟩
    · simp at h

/-- `-subdivide` at most 16: a face that is too long is never cut, and the loop does not end. -/
theorem subdivide_stuck (he : 0 ≤ eps) (hx : tex.isNodraw = false) (hy : tex.isHint = false) (hz : tex.isSubdivided = true)
    (hs : IsLength len tex.s) (h0 : 0 ≤ setting) (h1 : setting ≤ 16) {f : Face K} (hb : BallOk f) {a b : Vec K}
    (ha : a ∈ f.w) (hb' : b ∈ f.w) (hlong : (16 : K) < dot a tex.s - dot b tex.s) (fuel : Nat) :
    subdivideFace len eps setting tex fuel f = none := by
  have key : ∀ fuel c, chop len eps (subdivOf setting tex.lmshift) tex.s fuel [f] c = none := by
    have hsub : subdivOf setting tex.lmshift = setting := by
      unfold subdivOf
      refine min_eq_left (le_trans h1 ?_)
      have : (1 : Int) ≤ 2 ^ min tex.lmshift 4 := one_le_pow₀ (by norm_num)
      omega
    rw [hsub]
    intro fuel
    induction fuel with
    | zero => intro c; rfl
    | succ fuel ih =>
      intro c
      unfold chop
      cases hr : range tex.s f.w with
      | none => rw [range_none hr] at ha; simp at ha
      | some r =>
        obtain ⟨r1, r2, r3⟩ := range_some hr
        have hext : setting < extent r := by
          have e1 := (r1 a ha).2
          have e2 := (r1 b hb').1
          have c1 := Int.le_ceil r.2
          have c2 := Int.floor_le r.1
          have : ((16 : Int) : K) < ((extent r : Int) : K) := by
            unfold extent
            push_cast
            linarith
          have := Int.cast_lt.1 this
          omega
        simp only
        rw [if_neg (by omega)]
        have hp := len_ne hs h0 hr hext
        have hu := cut_unit hs (subdiv := setting) (m := r.1) (ne_of_gt hp)
        have hall : ∀ v ∈ f.w, 0 ≤ (cutPlane len setting tex.s r.1).distTo v := by
          intro v hv
          have hd := cut_dist (subdiv := setting) (m := r.1) (ne_of_gt hp) v
          have := (r1 v hv).1
          have h1' : ((setting : Int) : K) ≤ 16 := by exact_mod_cast h1
          by_contra hneg
          push Not at hneg
          have := mul_neg_of_neg_of_pos hneg hp
          linarith
        have hsp : splitFace eps f (cutPlane len setting tex.s r.1) = (some f, none) := by
          unfold splitFace
          by_cases g1 : f.radius < (cutPlane len setting tex.s r.1).distTo f.origin
          · rw [if_pos g1]
          · rw [if_neg g1, if_neg]
            · have hback : countSide (cutPlane len setting tex.s r.1) eps f.w .back = 0 :=
                countSide_zero.2 fun v hv hs => by have := side_back hs; have := hall v hv; linarith
              have : clip (cutPlane len setting tex.s r.1) eps true f.w = (some f.w, none) := by
                unfold clip
                by_cases hfr : countSide (cutPlane len setting tex.s r.1) eps f.w .front = 0
                · rw [if_pos ⟨rfl, hfr, hback⟩]
                · rw [if_neg (fun h => hfr h.2.1), if_neg hfr, if_pos hback]
              rw [this]
            · intro g2
              have := abs_le.1 (ball_dist hu hb.1 (hb.2 a ha))
              have := hall a ha
              linarith
        rw [hsp]
        exact ih c
  unfold subdivideFace
  rw [hx, hy, hz]
  simp only [Bool.not_true, Bool.or_self, Bool.false_eq_true, if_false]
  rw [key]
  rfl

/-- A face that is at most 240 units long has at most 17 luxels in a row when one luxel is 16 units long, and so fits into the
18 that old engines allow. -/
theorem fits_luxels {v : Vec K} {w : List (Vec K)} (h : FitsIn 240 v w) :
    ∀ a ∈ w, ∀ b ∈ w, ⌈dot a v / 16⌉ - ⌊dot b v / 16⌋ + 1 ≤ 17 := by
  intro a ha b hb
  have h1 := h a ha b hb
  have c1 := Int.le_ceil (dot a v)
  have c2 := Int.floor_le (dot b v)
  have d1 := Int.ceil_lt_add_one (dot a v / 16)
  have d2 := Int.lt_floor_add_one (dot b v / 16)
  have h2 : ((⌈dot a v⌉ - ⌊dot b v⌋ : Int) : K) ≤ ((240 : Int) : K) := Int.cast_le.2 h1
  push_cast at h2
  have : ((⌈dot a v / 16⌉ - ⌊dot b v / 16⌋ : Int) : K) < ((17 : Int) : K) := by
    push_cast
    have : dot a v / 16 - dot b v / 16 ≤ 15 := by
      rw [← sub_div, div_le_iff₀ (by norm_num)]
      linarith
    linarith
  have := Int.cast_lt.1 this
  omega

end

/-! ### Example: a face of 1000 by 100 units -/

namespace Example

/-- The length of a vector along an axis. -/
def axisLen (v : Vec ℚ) : ℚ := |v.x + v.y + v.z|

def face : Face ℚ :=
  { w := [⟨0, 0, 0⟩, ⟨0, 100, 0⟩, ⟨1000, 100, 0⟩, ⟨1000, 0, 0⟩], origin := ⟨500, 50, 0⟩, radius := 600, planenum := 0,
    texinfo := 3, contents := (0, 1), side := 7 }

def tex : Tex ℚ :=
  { isNodraw := false, isHint := false, isSubdivided := true, s := ⟨1, 0, 0⟩, t := ⟨0, 1, 0⟩, lmshift := 4 }

theorem face_ball : BallOk face := by
  refine ⟨by norm_num [face], ?_⟩
  intro v hv
  simp only [face, List.mem_cons, List.not_mem_nil, or_false] at hv
  rcases hv with rfl | rfl | rfl | rfl <;> norm_num [face, dot, subVec]

theorem face_ring : ConvexRing ⟨0, 0, -1⟩ 0 face.w := by
  refine ⟨by norm_num [dot], ?_, ?_⟩
  · intro v hv
    simp only [face, List.mem_cons, List.not_mem_nil, or_false] at hv
    rcases hv with rfl | rfl | rfl | rfl <;> norm_num [dot]
  · intro a b c h
    have := List.mem_sublists.2 h
    simp only [face] at h
    have hm : [a, b, c] ∈ (List.sublists face.w).filter (fun l => l.length = 3) :=
      List.mem_filter.2 ⟨List.mem_sublists.2 h, by simp⟩
    have e : (List.sublists face.w).filter (fun l => l.length = 3) =
        [[⟨0, 0, 0⟩, ⟨0, 100, 0⟩, ⟨1000, 100, 0⟩], [⟨0, 0, 0⟩, ⟨0, 100, 0⟩, ⟨1000, 0, 0⟩],
          [⟨0, 0, 0⟩, ⟨1000, 100, 0⟩, ⟨1000, 0, 0⟩], [⟨0, 100, 0⟩, ⟨1000, 100, 0⟩, ⟨1000, 0, 0⟩]] := rfl
    rw [e] at hm
    simp only [List.mem_cons, List.not_mem_nil, or_false, List.cons.injEq, and_true] at hm
    rcases hm with ⟨rfl, rfl, rfl⟩ | ⟨rfl, rfl, rfl⟩ | ⟨rfl, rfl, rfl⟩ | ⟨rfl, rfl, rfl⟩ <;> norm_num [turnOf]

theorem usual_s : Usual axisLen (1 / 10000) (subdivOf 240 tex.lmshift) tex.s := by
  refine ⟨⟨by norm_num [axisLen, tex], by norm_num [axisLen, tex, dot]⟩, ?_, ?_⟩ <;>
    norm_num [axisLen, tex, subdivOf]

theorem usual_t : Usual axisLen (1 / 10000) (subdivOf 240 tex.lmshift) tex.t := by
  refine ⟨⟨by norm_num [axisLen, tex], by norm_num [axisLen, tex, dot]⟩, ?_, ?_⟩ <;>
    norm_num [axisLen, tex, subdivOf]

example : ∃ n l, ∀ fuel, n ≤ fuel → subdivideFace axisLen (1 / 10000) 240 tex fuel face = some l :=
  subdivide_ends (by norm_num) usual_s usual_t face_ball ⟨_, _, face_ring⟩

/-- The widths of the pieces. -/
def widths (l : List (Face ℚ)) : List (Option (ℚ × ℚ)) := l.map fun f => range ⟨1, 0, 0⟩ f.w

set_option maxRecDepth 20000 in
/-- It is cut after 224, 448, 672 and 896 units. -/
example : (subdivideFace axisLen (1 / 10000) 240 tex 20 face).map widths =
    some [some (672, 896), some (448, 672), some (224, 448), some (0, 224), some (896, 1000)] := by
  decide +kernel

/-- With `-subdivide 16` the cutting does not end. -/
example (fuel : Nat) : subdivideFace axisLen (1 / 10000) 16 tex fuel face = none :=
  subdivide_stuck (by norm_num) rfl rfl rfl ⟨by norm_num [axisLen, tex], by norm_num [axisLen, tex, dot]⟩ (by norm_num)
    (by norm_num) face_ball (a := ⟨1000, 0, 0⟩) (b := ⟨0, 0, 0⟩) (by simp [face]) (by simp [face])
    (by norm_num [dot, tex]) fuel

/-- `255 << 1` units can be 257 luxels of 2 units, one more than engines allow: the limit on the extent is not one on the
luxels when the face does not begin at a luxel. -/
example : FitsIn (subdivOf 1000 1) ⟨1, 0, 0⟩ [(⟨1, 0, 0⟩ : Vec ℚ), ⟨511, 0, 0⟩] ∧
    ⌈dot (⟨511, 0, 0⟩ : Vec ℚ) ⟨1, 0, 0⟩ / 2⌉ - ⌊dot (⟨1, 0, 0⟩ : Vec ℚ) ⟨1, 0, 0⟩ / 2⌋ + 1 = 257 := by
  refine ⟨?_, by decide +kernel⟩
  intro a ha b hb
  simp only [List.mem_cons, List.not_mem_nil, or_false] at ha hb
  rcases ha with rfl | rfl <;> rcases hb with rfl | rfl <;> decide +kernel

end Example

end Verif.Surfaces
