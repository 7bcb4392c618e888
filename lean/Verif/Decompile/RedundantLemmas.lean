import Verif.Decompile.LeafProps
import Verif.BrushBsp.WindingProps

/-! Lemmas on the removal of redundant planes. -/

namespace Verif.Decompile

open Verif.Geom Verif.Geom.Spec Verif.Tree Verif.BrushBsp

set_option linter.unusedSectionVars false

variable {K : Type} [Field K] [LinearOrder K] [IsStrictOrderedRing K]

theorem front_of_clip {pl : Plane K} {eps : K} {w : List (Vec K)} (h : clipFront pl eps false w = none) :
    ∀ p ∈ w, sideOf eps (pl.distTo p) ≠ .front := by
  apply clip_front_none (k := false)
  rw [clip_front_back_agree, h]

theorem part_of_clip {pl : Plane K} {eps : K} {w f : List (Vec K)} (h : clipFront pl eps false w = some f) :
    Part pl eps w f := by
  apply clip_front_part (k := false)
  rw [clip_front_back_agree, h]

/-- A point that is behind all planes is not clipped away. -/
theorem clipAll_keeps {eps : K} (he : 0 ≤ eps) {z : Vec K} : ∀ (l : List (DecPlane K)) (w : List (Vec K)),
    (∀ q ∈ l, UnitNormal q.plane) → NoneNear eps l w → ConvexPoly w → InHull w z → (∀ q ∈ l, q.plane.distTo z < 0) →
    clipAll eps l w ≠ none := by
  intro l
  induction l with
  | nil => intro w _ _ _ _ _; simp [clipAll]
  | cons q l ih =>
    intro w hu hn hc hz hl
    have hq := hl q List.mem_cons_self
    have huq : UnitNormal (negPlane q.plane) := unit_neg (hu q List.mem_cons_self)
    simp only [clipAll]
    cases hcl : clipFront (negPlane q.plane) eps false w with
    | none =>
      exfalso
      have hf := front_of_clip hcl
      have : ∀ v ∈ w, (negPlane q.plane).distTo v ≤ 0 := by
        intro v hv
        by_contra hcon
        push Not at hcon
        have h1 : ¬ (negPlane q.plane).distTo v > eps := by
          intro h2
          exact hf v hv (by unfold sideOf; rw [if_pos h2])
        rw [negPlane_dist] at hcon h1
        have := hn.1 v hv (by rw [abs_le]; constructor <;> linarith)
        linarith
      have := inHull_le hz this
      rw [negPlane_dist] at this
      linarith
    | some w' =>
      simp only
      have hpart : Part (negPlane q.plane) 0 w w' := by
        apply clipFront_exact he _ hcl
        intro v hv
        rw [negPlane_dist, abs_neg, neg_eq_zero]
        exact hn.1 v hv
      obtain ⟨n, k, hcw⟩ := hc
      refine ih w' (fun q' h' => hu q' (List.mem_cons_of_mem _ h')) (hn.2 w' hcl)
        ⟨n, k, part_convex huq hcw hpart⟩ (part_hull huq hcw hpart hz (by rw [negPlane_dist]; linarith))
        (fun q' h' => hl q' (List.mem_cons_of_mem _ h'))

/-- On the way from one point to another. -/
theorem dist_along (pl : Plane K) (a b : Vec K) (t : K) :
    pl.distTo (along a b t) = (1 - t) * pl.distTo a + t * pl.distTo b := by
  simp only [Plane.distTo, dot, along]; ring

theorem inner_along {l : List (DecPlane K)} {a b : Vec K} {t : K} (ha : Region l a) (hb : Inner l b) (h0 : 0 < t)
    (h1 : t ≤ 1) : Inner l (along a b t) := by
  intro q hq
  rw [dist_along]
  have x1 := ha q hq
  have x2 := hb q hq
  have := mul_nonpos_of_nonneg_of_nonpos (show 0 ≤ 1 - t by linarith) x1
  have := mul_neg_of_pos_of_neg h0 x2
  linarith

/-- Leaving a plane out that touches nothing inside the others does not change the brush. -/
theorem drop_sound {C : List (DecPlane K)} {p : DecPlane K} {y : Vec K} (hy : Inner C y) (hyp : p.plane.distTo y < 0)
    (h : ∀ z, p.plane.distTo z = 0 → ¬ Inner C z) {x : Vec K} (hx : Region C x) : p.plane.distTo x ≤ 0 := by
  have hin : ∀ z, Inner C z → p.plane.distTo z < 0 := by
    intro z hz
    by_contra hcon
    push Not at hcon
    have hpos : 0 < p.plane.distTo z - p.plane.distTo y := by linarith
    have h0 : 0 ≤ (0 - p.plane.distTo y) / (p.plane.distTo z - p.plane.distTo y) := div_nonneg (by linarith) hpos.le
    have h1 : (0 - p.plane.distTo y) / (p.plane.distTo z - p.plane.distTo y) ≤ 1 := by
      rw [div_le_one hpos]; linarith
    apply h (along y z ((0 - p.plane.distTo y) / (p.plane.distTo z - p.plane.distTo y)))
    · rw [dist_along]
      field_simp
      ring
    · intro q hq
      rw [dist_along]
      have x1 := hy q hq
      have x2 := hz q hq
      generalize (0 - p.plane.distTo y) / (p.plane.distTo z - p.plane.distTo y) = t at *
      rcases eq_or_lt_of_le h0 with e | e
      · rw [← e]; linarith
      · have := mul_nonpos_of_nonneg_of_nonpos (show 0 ≤ 1 - t by linarith) x1.le
        have := mul_neg_of_pos_of_neg e x2
        linarith
  by_contra hcon
  push Not at hcon
  -- near `x`, the way to `y` is still in front of the plane
  have hpos : 0 < p.plane.distTo x - p.plane.distTo y := by linarith
  have ht0 : 0 < p.plane.distTo x / (p.plane.distTo x - p.plane.distTo y) := div_pos hcon hpos
  have ht1 : p.plane.distTo x / (p.plane.distTo x - p.plane.distTo y) ≤ 1 := by rw [div_le_one hpos]; linarith
  have := hin _ (inner_along hx hy ht0 ht1)
  rw [dist_along] at this
  have e : (1 - p.plane.distTo x / (p.plane.distTo x - p.plane.distTo y)) * p.plane.distTo x +
      p.plane.distTo x / (p.plane.distTo x - p.plane.distTo y) * p.plane.distTo y = 0 := by
    field_simp; ring
  linarith

/-- A small step from a point inside stays inside. -/
theorem inner_step {C : List (DecPlane K)} {z : Vec K} (hz : Inner C z) (u : Vec K) :
    ∃ t, 0 < t ∧ ∀ s, 0 ≤ s → s ≤ t → Inner C (go z u s) := by
  induction C with
  | nil => exact ⟨1, one_pos, fun s _ _ q hq => by simp at hq⟩
  | cons q C ih =>
    obtain ⟨t, ht, h⟩ := ih (fun q' h' => hz q' (List.mem_cons_of_mem _ h'))
    have hq := hz q List.mem_cons_self
    have hpos : 0 < |dot u q.plane.normal| + 1 := by positivity
    refine ⟨min t (-(q.plane.distTo z) / (2 * (|dot u q.plane.normal| + 1))), lt_min ht (by
      apply div_pos <;> linarith), ?_⟩
    intro s h0 h1 q' hq'
    rcases List.mem_cons.1 hq' with rfl | hq'
    · rw [dist_go]
      have h2 := h1.trans (min_le_right _ _)
      rw [le_div_iff₀ (by linarith)] at h2
      have h3 : s * dot u q'.plane.normal ≤ s * |dot u q'.plane.normal| := mul_le_mul_of_nonneg_left (le_abs_self _) h0
      nlinarith [abs_nonneg (dot u q'.plane.normal)]
    · exact h s h0 (h1.trans (min_le_left _ _)) q' hq'

/-- A plane that holds on the brush and touches the inside of one of its sides is the plane of that side. -/
theorem touching_same {C : List (DecPlane K)} {p q : DecPlane K} (hp : UnitNormal p.plane) (hq : UnitNormal q.plane)
    {y z : Vec K} (hyp : p.plane.distTo y < 0) (hyq : q.plane.distTo y < 0) (hz : Inner C z) (hzp : p.plane.distTo z = 0)
    (himp : ∀ x, p.plane.distTo x ≤ 0 → Region C x → q.plane.distTo x ≤ 0) (hzq : q.plane.distTo z = 0) :
    q.plane = p.plane := by
  have perp : ∀ u : Vec K, dot u p.plane.normal = 0 → dot u q.plane.normal = 0 := by
    have key : ∀ u : Vec K, dot u p.plane.normal = 0 → dot u q.plane.normal ≤ 0 := by
      intro u hu
      obtain ⟨t, ht, h⟩ := inner_step hz u
      have h1 := himp (go z u t) (by rw [dist_go, hzp, hu]; simp) (fun c hc => (h t ht.le (le_refl _) c hc).le)
      rw [dist_go, hzq, zero_add] at h1
      exact nonpos_of_mul_nonpos_right h1 ht
    intro u hu
    apply le_antisymm (key u hu)
    have := key ⟨-u.x, -u.y, -u.z⟩ (by simp only [dot] at hu ⊢; linarith)
    simp only [dot] at this ⊢
    linarith
  have hu : p.plane.normal.x * p.plane.normal.x + p.plane.normal.y * p.plane.normal.y +
    p.plane.normal.z * p.plane.normal.z = 1 := hp
  obtain ⟨⟨⟨px, py, pz⟩, pd⟩, pn, ps⟩ := p
  obtain ⟨⟨⟨qx, qy, qz⟩, qd⟩, qn, qs⟩ := q
  simp only [UnitNormal, Plane.distTo, dot] at *
  have ex := perp ⟨1 - px * px, -px * py, -px * pz⟩ (by simp only; linear_combination (-px) * hu)
  have ey := perp ⟨-py * px, 1 - py * py, -py * pz⟩ (by simp only; linear_combination (-py) * hu)
  have ez := perp ⟨-pz * px, -pz * py, 1 - pz * pz⟩ (by simp only; linear_combination (-pz) * hu)
  simp only at ex ey ez
  set m := px * qx + py * qy + pz * qz with hm
  have qx' : qx = m * px := by rw [hm]; linear_combination ex
  have qy' : qy = m * py := by rw [hm]; linear_combination ey
  have qz' : qz = m * pz := by rw [hm]; linear_combination ez
  have hmm : m * m = 1 := by
    have e : qx * qx + qy * qy + qz * qz = m * m * (px * px + py * py + pz * pz) := by
      rw [qx', qy', qz']; ring
    rw [hu, hq] at e
    linarith
  have hd : qd = m * pd := by
    have : z.x * qx + z.y * qy + z.z * qz = m * (z.x * px + z.y * py + z.z * pz) := by rw [qx', qy', qz']; ring
    have e1 : z.x * qx + z.y * qy + z.z * qz = qd := by linarith
    have e2 : z.x * px + z.y * py + z.z * pz = pd := by linarith
    rw [e1, e2] at this
    exact this
  have hm1 : m = 1 := by
    rcases mul_self_eq_one_iff.1 hmm with h | h
    · exact h
    · exfalso
      rw [qx', qy', qz', hd, h] at hyq
      linarith
  rw [hm1, one_mul] at qx' qy' qz' hd
  rw [qx', qy', qz', hd]

theorem removeLoop_mem {eps : K} {base : Plane K → List (Vec K)} {all : List (DecPlane K)} :
    ∀ (rest : List (DecPlane K)) (i : Nat) (kept : List (DecPlane K)),
      ∀ q ∈ removeLoop eps base all i kept rest, q ∈ kept ∨ q ∈ rest := by
  intro rest
  induction rest with
  | nil => intro i kept q hq; simp only [removeLoop] at hq; exact Or.inl hq
  | cons p rest ih =>
    intro i kept q hq
    simp only [removeLoop] at hq
    split_ifs at hq
    · rcases ih _ _ q hq with h | h
      · exact Or.inl h
      · exact Or.inr (List.mem_cons_of_mem _ h)
    · rcases ih _ _ q hq with h | h
      · rcases List.mem_append.1 h with h | h
        · exact Or.inl h
        · rw [List.mem_singleton] at h; subst h; exact Or.inr List.mem_cons_self
      · exact Or.inr (List.mem_cons_of_mem _ h)

/-- What the removal needs to know of the planes. -/
structure Good (eps r : K) (base : Plane K → List (Vec K)) (all : List (DecPlane K)) : Prop where
  eps0 : 0 ≤ eps
  unit : ∀ q ∈ all, UnitNormal q.plane
  sheet : ∀ q ∈ all, BaseOk r base q.plane
  near : ∀ q ∈ all, ∀ l : List (DecPlane K), (∀ c ∈ l, c ∈ all) → NoneNear eps l (base q.plane)
  world : ∀ x, Region all x → dot x x ≤ r * r
  solid : ∃ y, Inner all y

/-- The test of one plane: if it is clipped away by others, it does not touch the inside of the brush that they and the
rest make, which is the whole brush. -/
theorem test_sound {eps r : K} {base : Plane K → List (Vec K)} {all : List (DecPlane K)} (g : Good eps r base all)
    {p : DecPlane K} (hp : p ∈ all) {others : List (DecPlane K)} (ho : ∀ c ∈ others, c ∈ all)
    (h : clipAll eps others (base p.plane) = none) {z : Vec K} (hz : p.plane.distTo z = 0) (hr : Region all z) :
    ¬ Inner others z := by
  intro hin
  refine clipAll_keeps g.eps0 others (base p.plane) (fun q hq => g.unit q (ho q hq)) (g.near p hp others ho)
    (g.sheet p hp).convex ((g.sheet p hp).spans z hz (g.world z hr)) hin h

theorem removeLoop_region {eps r : K} {base : Plane K → List (Vec K)} {all : List (DecPlane K)} (g : Good eps r base all)
    (hd : (all.map (·.plane)).Nodup) : ∀ (rest : List (DecPlane K)) (kept : List (DecPlane K)) (i : Nat),
    all.drop i = rest → kept.length ≤ i → (∀ q ∈ kept, q ∈ all.take i) →
    (∀ x, Region (kept ++ rest) x → Region all x) →
    ∀ x, Region (removeLoop eps base all i kept rest) x → Region all x := by
  intro rest
  induction rest with
  | nil =>
    intro kept i _ _ _ hR x hx
    simp only [removeLoop] at hx
    exact hR x (by simpa using hx)
  | cons p rest ih =>
    intro kept i hdrop hlen hkept hR x hx
    have hsplit : all = all.take i ++ p :: rest := by rw [← hdrop]; exact (List.take_append_drop i all).symm
    have hdrop' : all.drop (i + 1) = rest := by
      rw [← List.tail_drop, hdrop]; rfl
    have hpall : p ∈ all := by rw [hsplit]; simp
    have htake : all.take (i + 1) = all.take i ++ [p] := by
      have hi : i < all.length := by
        by_contra hcon
        rw [List.drop_eq_nil_of_le (by omega)] at hdrop
        cases hdrop
      have hget : all[i] = p := by
        have := List.drop_eq_getElem_cons hi
        rw [hdrop] at this
        injection this with h1 _
        exact h1.symm
      rw [List.take_succ_eq_append_getElem hi, hget]
    have hrest : ∀ q ∈ rest, q ∈ all := by intro q hq; rw [hsplit]; simp [hq]
    have htk : ∀ q ∈ all.take i, q ∈ all := fun q hq => List.mem_of_mem_take hq
    simp only [removeLoop] at hx
    split_ifs at hx with hc
    · -- removed
      refine ih kept (i + 1) hdrop' (by omega) (fun q hq => by rw [htake]; simp [hkept q hq]) ?_ x hx
      intro x' hx'
      rw [Option.isNone_iff_eq_none] at hc
      apply hR
      intro c hc'
      rcases List.mem_append.1 hc' with h | h
      · exact hx' c (List.mem_append_left _ h)
      rcases List.mem_cons.1 h with rfl | h
      · obtain ⟨y, hy⟩ := g.solid
        have hCin : ∀ c' ∈ kept ++ rest, c' ∈ all := by
          intro c' h'
          rcases List.mem_append.1 h' with h' | h'
          · exact htk c' (hkept c' h')
          · exact hrest c' h'
        refine drop_sound (C := kept ++ rest) (fun c' h' => hy c' (hCin c' h')) (hy _ hpall) ?_ hx'
        intro z hz hin
        -- the brush made of the planes kept and the ones to come
        have hzall : Region all z := by
          apply hR
          intro c' h'
          rcases List.mem_append.1 h' with h' | h'
          · exact (hin c' (List.mem_append_left _ h')).le
          · rcases List.mem_cons.1 h' with rfl | h'
            · exact le_of_eq hz
            · exact (hin c' (List.mem_append_right _ h')).le
        refine test_sound g hpall ?_ hc hz hzall ?_
        · intro c' h'
          rcases List.mem_append.1 h' with h' | h'
          · exact htk c' (hkept c' h')
          · rcases List.mem_append.1 h' with h' | h'
            · exact List.mem_of_mem_drop (List.mem_of_mem_take h')
            · exact hrest c' h'
        · intro c' h'
          rcases List.mem_append.1 h' with h' | h'
          · exact hin c' (List.mem_append_left _ h')
          · rcases List.mem_append.1 h' with h' | h'
            · -- a plane left over from before
              have hc'all : c' ∈ all := List.mem_of_mem_drop (List.mem_of_mem_take h')
              rcases lt_or_eq_of_le (hzall c' hc'all) with h0 | h0
              · exact h0
              · exfalso
                have same : c'.plane = c.plane := touching_same (C := kept ++ rest) (g.unit c hpall) (g.unit c' hc'all)
                  (hy c hpall) (hy c' hc'all) hin hz (fun x'' h1 h2 => hR x'' (by
                    intro d hd'
                    rcases List.mem_append.1 hd' with h3 | h3
                    · exact h2 d (List.mem_append_left _ h3)
                    · rcases List.mem_cons.1 h3 with rfl | h3
                      · exact h1
                      · exact h2 d (List.mem_append_right _ h3)) c' hc'all) h0
                have htk' : c' ∈ all.take i := by
                  have : (all.drop kept.length).take (i - kept.length) = (all.take i).drop kept.length := by
                    rw [List.drop_take]
                  rw [this] at h'
                  exact List.mem_of_mem_drop h'
                rw [hsplit, List.map_append, List.map_cons, List.nodup_append] at hd
                exact hd.2.2 _ (List.mem_map_of_mem htk') _ List.mem_cons_self same
            · exact hin c' (List.mem_append_right _ h')
      · exact hx' c (List.mem_append_right _ h)
    · refine ih (kept ++ [p]) (i + 1) hdrop' (by simp; omega) ?_ ?_ x hx
      · intro q hq
        rw [htake]
        rcases List.mem_append.1 hq with h | h
        · exact List.mem_append_left _ (hkept q h)
        · exact List.mem_append_right _ h
      · intro x' hx'
        apply hR
        simpa using hx'

/-! ## Planes that are removed -/

/-- What is in front of one of the planes is clipped away. -/
theorem clipAll_front {eps : K} (he : 0 ≤ eps) {q : DecPlane K} :
    ∀ (l : List (DecPlane K)) (w : List (Vec K)), (∀ c ∈ l, UnitNormal c.plane) → (∀ v ∈ w, -eps ≤ q.plane.distTo v) →
      q ∈ l → clipAll eps l w = none := by
  intro l
  induction l with
  | nil => intro w _ _ h; simp at h
  | cons c l ih =>
    intro w hu hw hm
    simp only [clipAll]
    cases hc : clipFront (negPlane c.plane) eps false w with
    | none => rfl
    | some w' =>
      simp only
      have huc : UnitNormal (negPlane c.plane) := unit_neg (hu c List.mem_cons_self)
      rcases List.mem_cons.1 hm with rfl | hm
      · exfalso
        unfold clipFront at hc
        have h0 : countSide (negPlane q.plane) eps w .front = 0 := by
          unfold countSide
          rw [List.length_eq_zero_iff, List.filter_eq_nil_iff]
          intro v hv
          have := hw v hv
          unfold sideOf
          rw [negPlane_dist, if_neg (by linarith)]
          split <;> simp
        simp [h0] at hc
      · refine ih w' (fun c' h' => hu c' (List.mem_cons_of_mem _ h')) ?_ hm
        intro v hv
        obtain ⟨a, ha, b, hb, t, h0, h1, rfl⟩ := part_onSeg he huc (part_of_clip hc) v hv
        rw [dist_along]
        have x1 := hw a ha
        have x2 := hw b hb
        nlinarith [mul_le_mul_of_nonneg_left x1 (show 0 ≤ 1 - t by linarith), mul_le_mul_of_nonneg_left x2 h0]

theorem removeLoop_shape {eps : K} {base : Plane K → List (Vec K)} {all : List (DecPlane K)} :
    ∀ (rest : List (DecPlane K)) (i : Nat) (kept : List (DecPlane K)), ∃ sub,
      removeLoop eps base all i kept rest = kept ++ sub ∧ (∀ q ∈ sub, q ∈ rest) ∧
      ∀ a p b, sub = a ++ p :: b → ∃ others, (∀ q ∈ kept ++ (a ++ b), q ∈ others) ∧
        (∀ q ∈ others, q ∈ kept ∨ q ∈ all ∨ q ∈ rest) ∧ clipAll eps others (base p.plane) ≠ none := by
  intro rest
  induction rest with
  | nil => intro i kept; exact ⟨[], by simp [removeLoop], by simp, by simp⟩
  | cons p rest ih =>
    intro i kept
    simp only [removeLoop]
    split_ifs with hc
    · obtain ⟨sub, h1, h2, h3⟩ := ih (i + 1) kept
      refine ⟨sub, h1, fun q hq => List.mem_cons_of_mem _ (h2 q hq), ?_⟩
      intro a p' b e
      obtain ⟨o, o1, o2, o3⟩ := h3 a p' b e
      refine ⟨o, o1, ?_, o3⟩
      intro q hq
      rcases o2 q hq with h | h | h
      · exact Or.inl h
      · exact Or.inr (Or.inl h)
      · exact Or.inr (Or.inr (List.mem_cons_of_mem _ h))
    · obtain ⟨sub, h1, h2, h3⟩ := ih (i + 1) (kept ++ [p])
      refine ⟨p :: sub, by rw [h1]; simp, ?_, ?_⟩
      · intro q hq
        rcases List.mem_cons.1 hq with rfl | hq
        · exact List.mem_cons_self
        · exact List.mem_cons_of_mem _ (h2 q hq)
      · intro a p' b e
        cases a with
        | nil =>
          simp only [List.nil_append, List.cons.injEq] at e
          obtain ⟨rfl, rfl⟩ := e
          refine ⟨_, ?_, ?_, fun h => hc (by rw [h]; rfl)⟩
          · intro q hq
            rcases List.mem_append.1 hq with h | h
            · exact List.mem_append_left _ h
            · exact List.mem_append_right _ (List.mem_append_right _ (h2 q (by simpa using h)))
          · intro q hq
            rcases List.mem_append.1 hq with h | h
            · exact Or.inl h
            · rcases List.mem_append.1 h with h | h
              · exact Or.inr (Or.inl (List.mem_of_mem_drop (List.mem_of_mem_take h)))
              · exact Or.inr (Or.inr (List.mem_cons_of_mem _ h))
        | cons a0 a =>
          simp only [List.cons_append, List.cons.injEq] at e
          obtain ⟨rfl, e⟩ := e
          obtain ⟨o, o1, o2, o3⟩ := h3 a p' b e
          refine ⟨o, fun q hq => o1 q (by simpa using hq), ?_, o3⟩
          intro q hq
          rcases o2 q hq with h | h | h
          · rcases List.mem_append.1 h with h | h
            · exact Or.inl h
            · rw [List.mem_singleton] at h; subst h; exact Or.inr (Or.inr List.mem_cons_self)
          · exact Or.inr (Or.inl h)
          · exact Or.inr (Or.inr (List.mem_cons_of_mem _ h))

/-- The state of the loop behind the first planes. -/
theorem removeLoop_append {eps : K} {base : Plane K → List (Vec K)} {all : List (DecPlane K)} :
    ∀ (a rest : List (DecPlane K)) (i : Nat) (kept : List (DecPlane K)), kept.length ≤ i → ∃ kept' : List (DecPlane K),
      removeLoop eps base all i kept (a ++ rest) = removeLoop eps base all (i + a.length) kept' rest ∧
      kept'.length ≤ i + a.length ∧ ∀ q ∈ kept', q ∈ kept ∨ q ∈ a := by
  intro a
  induction a with
  | nil => intro rest i kept h; exact ⟨kept, by simp, by simpa using h, fun q hq => Or.inl hq⟩
  | cons p a ih =>
    intro rest i kept hl
    simp only [List.cons_append, removeLoop]
    split_ifs with hc
    · obtain ⟨k, h1, h2, h3⟩ := ih rest (i + 1) kept (by omega)
      refine ⟨k, by rw [h1]; congr 1; simp; omega, by simp; omega, ?_⟩
      intro q hq
      rcases h3 q hq with h | h
      · exact Or.inl h
      · exact Or.inr (List.mem_cons_of_mem _ h)
    · obtain ⟨k, h1, h2, h3⟩ := ih rest (i + 1) (kept ++ [p]) (by simp; omega)
      refine ⟨k, by rw [h1]; congr 1; simp; omega, by simp; omega, ?_⟩
      intro q hq
      rcases h3 q hq with h | h
      · rcases List.mem_append.1 h with h | h
        · exact Or.inl h
        · rw [List.mem_singleton] at h; subst h; exact Or.inr List.mem_cons_self
      · exact Or.inr (List.mem_cons_of_mem _ h)

/-! ## Brushes of Quake II maps -/

theorem q2Loop_region {eps r : K} {base : Plane K → List (Vec K)} {thin : List (Vec K) → Bool} {all : List (DecPlane K)}
    (g : Good eps r base all)
    (ht : ∀ q ∈ all, ∀ l w, clipAll eps l (base q.plane) = some w → thin w = false) :
    ∀ (before used : List (DecPlane K)), (∀ q ∈ before, q ∈ all) → (∀ q ∈ used, q ∈ all) →
    (∀ x, Region (before.reverse ++ used) x → Region all x) →
    ∀ x, Region used x → Region ((q2Loop eps base thin used before).map (·.1)) x → Region all x := by
  intro before
  induction before with
  | nil => intro used _ _ hR x hx _; exact hR x (by simpa using hx)
  | cons p before ih =>
    intro used hb hu hR x hx hx'
    have hpall := hb p List.mem_cons_self
    have hb' : ∀ q ∈ before, q ∈ all := fun q hq => hb q (List.mem_cons_of_mem _ hq)
    have hu' : ∀ q ∈ p :: used, q ∈ all := by
      intro q hq
      rcases List.mem_cons.1 hq with rfl | hq
      · exact hpall
      · exact hu q hq
    have hassoc : (p :: before).reverse ++ used = before.reverse ++ p :: used := by simp
    rw [hassoc] at hR
    simp only [q2Loop] at hx'
    cases hc : clipAll eps (before.reverse ++ used) (base p.plane) with
    | none =>
      rw [hc] at hx'
      simp only at hx'
      refine ih used hb' hu ?_ x hx hx'
      intro x' hx2
      apply hR
      have hin : ∀ c ∈ before.reverse ++ used, c ∈ all := by
        intro c h
        rcases List.mem_append.1 h with h | h
        · exact hb' c (by simpa using h)
        · exact hu c h
      obtain ⟨y, hy⟩ := g.solid
      have hpx : p.plane.distTo x' ≤ 0 := by
        refine drop_sound (C := before.reverse ++ used) (fun c h => hy c (hin c h)) (hy p hpall) ?_ hx2
        intro z hz hi
        refine test_sound g hpall hin hc hz (hR z ?_) hi
        intro c h
        rcases List.mem_append.1 h with h | h
        · exact (hi c (List.mem_append_left _ h)).le
        · rcases List.mem_cons.1 h with rfl | h
          · exact le_of_eq hz
          · exact (hi c (List.mem_append_right _ h)).le
      intro c h
      rcases List.mem_append.1 h with h | h
      · exact hx2 c (List.mem_append_left _ h)
      · rcases List.mem_cons.1 h with rfl | h
        · exact hpx
        · exact hx2 c (List.mem_append_right _ h)
    | some w =>
      rw [hc] at hx'
      simp only [ht p hpall _ w hc, Bool.false_eq_true, if_false, List.map_cons] at hx'
      refine ih (p :: used) hb' hu' hR x ?_ (fun c h => hx' c (List.mem_cons_of_mem _ h))
      intro c h
      rcases List.mem_cons.1 h with rfl | h
      · exact hx' _ List.mem_cons_self
      · exact hx c h

theorem q2Loop_mem {eps : K} {base : Plane K → List (Vec K)} {thin : List (Vec K) → Bool} :
    ∀ (before used : List (DecPlane K)) (s : DecPlane K × List (Vec K)), s ∈ q2Loop eps base thin used before →
      s.1 ∈ before ∧ thin s.2 = false ∧ ∃ l, clipAll eps l (base s.1.plane) = some s.2 := by
  intro before
  induction before with
  | nil => intro used s hs; simp [q2Loop] at hs
  | cons p before ih =>
    intro used s hs
    simp only [q2Loop] at hs
    cases hc : clipAll eps (before.reverse ++ used) (base p.plane) with
    | none =>
      rw [hc] at hs
      obtain ⟨h1, h2⟩ := ih used s hs
      exact ⟨List.mem_cons_of_mem _ h1, h2⟩
    | some w =>
      rw [hc] at hs
      simp only at hs
      split_ifs at hs with ht
      · obtain ⟨h1, h2⟩ := ih _ s hs
        exact ⟨List.mem_cons_of_mem _ h1, h2⟩
      · rcases List.mem_cons.1 hs with rfl | hs
        · exact ⟨List.mem_cons_self, by simpa using ht, _, hc⟩
        · obtain ⟨h1, h2⟩ := ih _ s hs
          exact ⟨List.mem_cons_of_mem _ h1, h2⟩

theorem noneNear_zero : ∀ (l : List (DecPlane K)) (w : List (Vec K)), NoneNear 0 l w := by
  intro l
  induction l with
  | nil => intro w; trivial
  | cons q l ih => intro w; exact ⟨fun v _ h => abs_nonpos_iff.1 h, fun w' _ => ih w'⟩

end Verif.Decompile
