import Verif.Hulls.Lemmas

/-! Lemmas: vectors in space, rays of cones, and the points of a closed body that are farthest in a direction. -/

namespace Verif.Hulls

open Geom Geom.Spec BrushBsp BrushBsp.Spec Hulls.Spec

variable {K : Type} [Field K] [LinearOrder K] [IsStrictOrderedRing K]

/-- A multiple of a vector. -/
def times (k : K) (v : Vec K) : Vec K := ⟨k * v.x, k * v.y, k * v.z⟩

theorem dot_times (k : K) (a b : Vec K) : dot a (times k b) = k * dot a b := by simp only [dot, times]; ring

theorem times_dot (k : K) (a b : Vec K) : dot (times k a) b = k * dot a b := by simp only [dot, times]; ring

theorem dot_comm (a b : Vec K) : dot a b = dot b a := by simp only [dot]; ring

theorem dot_minus (g a b : Vec K) : dot g (minus a b) = dot g a - dot g b := by simp only [dot, minus]; ring

theorem minus_dot (g a b : Vec K) : dot (minus a b) g = dot a g - dot b g := by simp only [dot, minus]; ring

theorem cross_left (a b : Vec K) : dot a (cross a b) = 0 := by simp only [dot, cross]; ring

theorem cross_right (a b : Vec K) : dot b (cross a b) = 0 := by simp only [dot, cross]; ring

theorem cross_times_self (a : Vec K) (k : K) : cross a (times k a) = ⟨0, 0, 0⟩ := by
  simp only [cross, times, Vec.mk.injEq]; refine ⟨?_, ?_, ?_⟩ <;> ring

theorem minus_ne {a b : Vec K} (h : a ≠ b) : minus a b ≠ ⟨0, 0, 0⟩ := by
  intro e
  apply h
  cases a; cases b
  simp only [minus, Vec.mk.injEq] at e ⊢
  exact ⟨by linarith [e.1], by linarith [e.2.1], by linarith [e.2.2]⟩

/-- Vectors without a cross product are parallel. -/
theorem parallel {a b : Vec K} (ha : a ≠ ⟨0, 0, 0⟩) (h : cross a b = ⟨0, 0, 0⟩) : ∃ k, b = times k a := by
  have hpos := sq_pos ha
  refine ⟨dot a b / dot a a, ?_⟩
  have hne : dot a a ≠ 0 := ne_of_gt hpos
  cases a with
  | mk ax ay az =>
    cases b with
    | mk bx by_ bz =>
      simp only [cross, Vec.mk.injEq] at h
      obtain ⟨h1, h2, h3⟩ := h
      simp only [times, Vec.mk.injEq]
      simp only [dot] at hne ⊢
      refine ⟨?_, ?_, ?_⟩ <;> rw [div_mul_eq_mul_div, eq_div_iff hne]
      · linear_combination (-ay) * h3 + az * h2
      · linear_combination (-az) * h1 + ax * h3
      · linear_combination (-ax) * h2 + ay * h1

/-- What is perpendicular to two directions is along their cross product. -/
theorem along_cross {a b g : Vec K} (h : cross a b ≠ ⟨0, 0, 0⟩) (ha : dot a g = 0) (hb : dot b g = 0) :
    ∃ k, g = times k (cross a b) := by
  apply parallel h
  simp only [dot] at ha hb
  simp only [cross, Vec.mk.injEq]
  refine ⟨?_, ?_, ?_⟩
  · linear_combination b.x * ha - a.x * hb
  · linear_combination b.y * ha - a.y * hb
  · linear_combination b.z * ha - a.z * hb

/-- On the way along a direction that leaves a cone, the first wall. -/
theorem hit {g h : Vec K} : ∀ (C : List (Vec K)), (∀ a ∈ C, 0 ≤ dot a g) → (∃ a ∈ C, dot a h < 0) →
    ∃ t, 0 ≤ t ∧ (∀ a ∈ C, 0 ≤ dot a (go g h t)) ∧ ∃ a ∈ C, dot a h < 0 ∧ dot a (go g h t) = 0 := by
  intro C
  induction C with
  | nil => rintro _ ⟨a, ha, _⟩; simp at ha
  | cons c C ih =>
    intro hg hex
    have hc := hg c List.mem_cons_self
    have hg' := fun a ha => hg a (List.mem_cons_of_mem _ ha)
    by_cases hC : ∃ a ∈ C, dot a h < 0
    · obtain ⟨t, ht, hall, a, ha, han, haz⟩ := ih hg' hC
      rcases lt_or_ge (dot c h) 0 with hcn | hcp
      · set tc := dot c g / -dot c h with htc
        have htc0 : 0 ≤ tc := div_nonneg hc (by linarith)
        have hmul : tc * dot c h = -dot c g := by have := ne_of_lt hcn; rw [htc]; field_simp
        rcases le_total t tc with hle | hle
        · refine ⟨t, ht, ?_, a, List.mem_cons_of_mem _ ha, han, haz⟩
          intro x hx
          rcases List.mem_cons.1 hx with rfl | hx
          · rw [dot_go]
            have := mul_le_mul_of_nonpos_right hle (le_of_lt hcn)
            linarith
          · exact hall x hx
        · refine ⟨tc, htc0, ?_, c, List.mem_cons_self, hcn, by rw [dot_go]; linarith⟩
          intro x hx
          rcases List.mem_cons.1 hx with rfl | hx
          · rw [dot_go]; linarith
          · have h1 := hall x hx
            rw [dot_go] at h1 ⊢
            rcases le_total 0 (dot x h) with h2 | h2
            · have := mul_nonneg htc0 h2
              linarith [hg' x hx]
            · have := mul_le_mul_of_nonpos_right hle h2
              linarith
      · refine ⟨t, ht, ?_, a, List.mem_cons_of_mem _ ha, han, haz⟩
        intro x hx
        rcases List.mem_cons.1 hx with rfl | hx
        · rw [dot_go]
          have := mul_nonneg ht hcp
          linarith
        · exact hall x hx
    · push Not at hC
      have hcn : dot c h < 0 := by
        obtain ⟨a, ha, hn⟩ := hex
        rcases List.mem_cons.1 ha with rfl | ha
        · exact hn
        · exact absurd hn (not_lt.2 (hC a ha))
      set tc := dot c g / -dot c h with htc
      have htc0 : 0 ≤ tc := div_nonneg hc (by linarith)
      have hmul : tc * dot c h = -dot c g := by have := ne_of_lt hcn; rw [htc]; field_simp
      refine ⟨tc, htc0, ?_, c, List.mem_cons_self, hcn, by rw [dot_go]; linarith⟩
      intro x hx
      rcases List.mem_cons.1 hx with rfl | hx
      · rw [dot_go]; linarith
      · rw [dot_go]
        have := mul_nonneg htc0 (hC x hx)
        linarith [hg' x hx]

/-- The same along a line. -/
theorem hitLine {g h : Vec K} {C : List (Vec K)} (hg : ∀ a ∈ C, 0 ≤ dot a g) (hex : ∃ a ∈ C, dot a h ≠ 0) :
    ∃ t, (∀ a ∈ C, 0 ≤ dot a (go g h t)) ∧ ∃ a ∈ C, dot a h ≠ 0 ∧ dot a (go g h t) = 0 := by
  obtain ⟨a, ha, hne⟩ := hex
  rcases lt_or_gt_of_ne hne with h1 | h1
  · obtain ⟨t, _, hall, b, hb, hbn, hbz⟩ := hit C hg ⟨a, ha, h1⟩
    exact ⟨t, hall, b, hb, ne_of_lt hbn, hbz⟩
  · obtain ⟨t, _, hall, b, hb, hbn, hbz⟩ := hit (h := times (-1) h) C hg ⟨a, ha, by rw [dot_times]; linarith⟩
    have e : go g (times (-1) h) t = go g h (-t) := by
      simp only [go, times, Vec.mk.injEq]; refine ⟨?_, ?_, ?_⟩ <;> ring
    rw [e] at hall hbz
    refine ⟨-t, hall, b, hb, ?_, hbz⟩
    rw [dot_times] at hbn
    intro h0
    rw [h0] at hbn
    linarith

/-- A cone without lines: if a linear function is negative in it, then on a ray where two walls meet. -/
theorem extreme {C : List (Vec K)} (hfull : ∀ h : Vec K, h ≠ ⟨0, 0, 0⟩ → ∃ a ∈ C, dot a h ≠ 0) {g y : Vec K}
    (hg : ∀ a ∈ C, 0 ≤ dot a g) (hy : dot y g < 0) :
    ∃ g', (∀ a ∈ C, 0 ≤ dot a g') ∧ dot y g' < 0 ∧
      ∃ a ∈ C, ∃ b ∈ C, dot a g' = 0 ∧ dot b g' = 0 ∧ cross a b ≠ ⟨0, 0, 0⟩ := by
  obtain ⟨h, h1, h2, _⟩ := in_plane y g
  have hne : h ≠ ⟨0, 0, 0⟩ := by rintro rfl; simp [dot] at h1
  obtain ⟨t, hall, a, ha, han, haz⟩ := hitLine hg (hfull h hne)
  have hy1 : dot y (go g h t) < 0 := by rw [dot_go, dot_comm y h, h2]; linarith
  set g1 := go g h t with hg1
  have ha0 : a ≠ ⟨0, 0, 0⟩ := by rintro rfl; exact han (by simp [dot])
  have hc : cross y a ≠ ⟨0, 0, 0⟩ := by
    intro e
    have e' : cross a y = ⟨0, 0, 0⟩ := by
      simp only [cross, Vec.mk.injEq] at e ⊢
      exact ⟨by linarith [e.1], by linarith [e.2.1], by linarith [e.2.2]⟩
    obtain ⟨k, rfl⟩ := parallel ha0 e'
    rw [times_dot, haz] at hy1
    linarith
  obtain ⟨t2, hall2, b, hb, hbn, hbz⟩ := hitLine hall (hfull _ hc)
  refine ⟨_, hall2, ?_, a, ha, b, hb, ?_, hbz, ?_⟩
  · rw [dot_go, cross_left]; linarith
  · rw [dot_go, cross_right, haz]; ring
  · intro e
    obtain ⟨k, rfl⟩ := parallel ha0 e
    apply hbn
    rw [times_dot, cross_right]; ring

/-- Farthest points of a body in a direction. -/
def Farthest (fs : List (Face K)) (g v : Vec K) : Prop := Spec.Inside fs v ∧ ∀ q, Spec.Inside fs q → dot g q ≤ dot g v

theorem dot_eq_of_far {fs : List (Face K)} {g u v : Vec K} (hu : Farthest fs g u) (hv : Farthest fs g v) :
    dot g u = dot g v := le_antisymm (hv.2 u hu.1) (hu.2 v hv.1)

/-- Farthest points are on the border. -/
theorem far_active {fs : List (Face K)} (hc : Spec.Closed fs) {g v : Vec K} (hg : g ≠ ⟨0, 0, 0⟩) (hv : Farthest fs g v) :
    ∃ f ∈ fs, f.plane.distTo v = 0 := by
  obtain ⟨r, hr⟩ := hc.bounded
  have hg' := sq_pos hg
  obtain ⟨t, ht, hin, f, hf, hd⟩ := exit hr hv.1 hg'
  have h1 := hv.2 _ hin
  rw [dot_go] at h1
  have ht0 : t = 0 := by
    rcases lt_or_eq_of_le ht with h | h
    · have := mul_pos h hg'
      linarith
    · exact h.symm
  refine ⟨f, hf, ?_⟩
  rw [ht0] at hd
  rwa [show go v g 0 = v by cases v; simp [go]] at hd

/-- The point strictly inside is less far. -/
theorem far_core {fs : List (Face K)} (hc : Spec.Closed fs) {g v : Vec K} (hg : g ≠ ⟨0, 0, 0⟩) (hv : Farthest fs g v)
    {c : Vec K} (hcore : ∀ f ∈ fs, f.plane.distTo c < 0) : dot g c < dot g v := by
  obtain ⟨r, hr⟩ := hc.bounded
  have hg' := sq_pos hg
  obtain ⟨t, ht, hin, f, hf, hd⟩ := exit hr (fun f hf => le_of_lt (hcore f hf)) hg'
  have h1 := hv.2 _ hin
  rw [dot_go] at h1
  rcases lt_or_eq_of_le ht with h | h
  · have := mul_pos h hg'
    linarith
  · rw [← h, show go c g 0 = c by cases c; simp [go]] at hd
    exact absurd hd (ne_of_lt (hcore f hf))

/-- A face whose normal is along the direction up to the sign, at a farthest point. -/
theorem far_sign {fs : List (Face K)} (hc : Spec.Closed fs) {g v : Vec K} (hg : g ≠ ⟨0, 0, 0⟩) (hv : Farthest fs g v)
    {f : Face K} (hf : f ∈ fs) (hd : f.plane.distTo v = 0) {k : K} (hk : g = times k f.plane.normal) : 0 < k := by
  obtain ⟨c, hcore⟩ := hc.core
  have h1 := far_core hc hg hv hcore
  have h2 := hcore f hf
  rw [hk, times_dot, times_dot] at h1
  have h3 : dot f.plane.normal c < dot f.plane.normal v := by
    simp only [Plane.distTo] at hd h2
    rw [dot_comm _ c, dot_comm _ v]
    linarith
  by_contra hcon
  rw [not_lt] at hcon
  have := mul_le_mul_of_nonpos_left (le_of_lt h3) hcon
  linarith

/-- Three farthest points that are not on a line are on a face that looks in the direction. -/
theorem far_three {fs : List (Face K)} (hc : Spec.Closed fs) {g u v y : Vec K} (hg : g ≠ ⟨0, 0, 0⟩)
    (hu : Farthest fs g u) (hv : Farthest fs g v) (hy : Farthest fs g y)
    (hn : cross (minus u v) (minus y v) ≠ ⟨0, 0, 0⟩) :
    ∃ f ∈ fs, f.plane.distTo v = 0 ∧ ∃ k, 0 < k ∧ g = times k f.plane.normal := by
  set m : Vec K := ⟨(u.x + v.x + y.x) / 3, (u.y + v.y + y.y) / 3, (u.z + v.z + y.z) / 3⟩ with hm
  have hdist : ∀ pl : Plane K, pl.distTo m = (pl.distTo u + pl.distTo v + pl.distTo y) / 3 := by
    intro pl; simp only [hm, Plane.distTo, dot]; ring
  have hin : Spec.Inside fs m := by
    intro f hf
    rw [hdist]
    have := hu.1 f hf; have := hv.1 f hf; have := hy.1 f hf
    linarith
  have hmf : Farthest fs g m := by
    refine ⟨hin, fun q hq => ?_⟩
    have e1 := dot_eq_of_far hu hv
    have e2 := dot_eq_of_far hy hv
    have : dot g m = (dot g u + dot g v + dot g y) / 3 := by simp only [hm, dot]; ring
    rw [this, e1, e2]
    have := hv.2 q hq
    linarith
  obtain ⟨f, hf, hd⟩ := far_active hc hg hmf
  rw [hdist] at hd
  have a1 := hu.1 f hf
  have a2 := hv.1 f hf
  have a3 := hy.1 f hf
  have z1 : f.plane.distTo u = 0 := by linarith
  have z2 : f.plane.distTo v = 0 := by linarith
  have z3 : f.plane.distTo y = 0 := by linarith
  obtain ⟨k1, hk1⟩ := along_cross (g := f.plane.normal) hn
    (by rw [minus_dot]; simp only [Plane.distTo] at z1 z2; linarith)
    (by rw [minus_dot]; simp only [Plane.distTo] at z3 z2; linarith)
  obtain ⟨k2, hk2⟩ := along_cross (g := g) hn
    (by rw [minus_dot, dot_comm u, dot_comm v, dot_eq_of_far hu hv]; ring)
    (by rw [minus_dot, dot_comm y, dot_comm v, dot_eq_of_far hy hv]; ring)
  have hk0 : k1 ≠ 0 := by
    rintro rfl
    have := hc.unit f hf
    rw [UnitNormal, hk1] at this
    simp [times, dot] at this
  have hk : g = times (k2 / k1) f.plane.normal := by
    rw [hk2, hk1]
    simp only [times, Vec.mk.injEq]
    refine ⟨?_, ?_, ?_⟩ <;> field_simp
  exact ⟨f, hf, z2, _, far_sign hc hg hv hf z2 hk, hk⟩

/-- A small step from a point of the body along directions that the planes through it allow. -/
theorem small_step {p d : Vec K} : ∀ (fs : List (Face K)), Spec.Inside fs p →
    (∀ f ∈ fs, f.plane.distTo p = 0 → dot d f.plane.normal ≤ 0) →
    ∃ t, 0 < t ∧ ∀ s, 0 ≤ s → s ≤ t → Spec.Inside fs (go p d s) := by
  intro fs
  induction fs with
  | nil => intro _ _; exact ⟨1, one_pos, fun _ _ _ f hf => by simp at hf⟩
  | cons a l ih =>
    intro hp hd
    obtain ⟨t, ht, hall⟩ := ih (fun f hf => hp f (List.mem_cons_of_mem _ hf)) (fun f hf => hd f (List.mem_cons_of_mem _ hf))
    have hpa := hp a List.mem_cons_self
    obtain ⟨ta, hta, haa⟩ : ∃ ta, 0 < ta ∧ ∀ s, 0 ≤ s → s ≤ ta → a.plane.distTo (go p d s) ≤ 0 := by
      rcases lt_or_eq_of_le hpa with h | h
      · rcases le_or_gt (dot d a.plane.normal) 0 with h1 | h1
        · refine ⟨1, one_pos, fun s hs _ => ?_⟩
          rw [dist_go]
          have := mul_nonpos_of_nonneg_of_nonpos hs h1
          linarith
        · refine ⟨-a.plane.distTo p / dot d a.plane.normal, div_pos (by linarith) h1, fun s hs hle => ?_⟩
          rw [dist_go]
          have := mul_le_mul_of_nonneg_right hle (le_of_lt h1)
          rw [div_mul_cancel₀ _ (ne_of_gt h1)] at this
          linarith
      · refine ⟨1, one_pos, fun s hs _ => ?_⟩
        rw [dist_go, h]
        have := mul_nonpos_of_nonneg_of_nonpos hs (hd a List.mem_cons_self h)
        linarith
    refine ⟨min t ta, lt_min ht hta, fun s hs hle f hf => ?_⟩
    rcases List.mem_cons.1 hf with rfl | hf
    · exact haa s hs (le_trans hle (min_le_right _ _))
    · exact hall s hs (le_trans hle (min_le_left _ _)) f hf

/-- If all faces at a farthest point have the same normal, it is the direction. -/
theorem far_single {fs : List (Face K)} (hc : Spec.Closed fs) {g m n : Vec K} (hg : g ≠ ⟨0, 0, 0⟩) (hm : Farthest fs g m)
    (hn : ∀ f ∈ fs, f.plane.distTo m = 0 → f.plane.normal = n) :
    ∃ f ∈ fs, f.plane.distTo m = 0 ∧ ∃ k, 0 < k ∧ g = times k f.plane.normal := by
  obtain ⟨f, hf, hd⟩ := far_active hc hg hm
  have hfn := hn f hf hd
  have hu : dot n n = 1 := by rw [← hfn]; exact hc.unit f hf
  set d : Vec K := minus g (times (dot g n) n) with hdd
  have hdn : dot d n = 0 := by rw [hdd, minus_dot, times_dot, hu]; ring
  have hdg : dot g d = dot d d := by
    have : dot d d = dot g d - dot g n * dot n d := by
      rw [hdd]; simp only [dot, minus, times]; ring
    rw [this, dot_comm n d, hdn]; ring
  have hd0 : d = ⟨0, 0, 0⟩ := by
    by_contra hne
    have hpos := sq_pos hne
    obtain ⟨t, ht, hall⟩ := small_step fs hm.1 (d := d) (fun f' hf' hd' => by rw [hn f' hf' hd', hdn])
    have h1 := hm.2 _ (hall t (le_of_lt ht) (le_refl t))
    rw [dot_go, hdg] at h1
    have := mul_pos ht hpos
    linarith
  have hgn : g = times (dot g n) n := by
    by_contra hne
    exact minus_ne hne hd0
  rw [← hfn] at hgn
  exact ⟨f, hf, hd, _, far_sign hc hg hm hf hd hgn, hgn⟩

/-- A number that outweighs the differences in a list. -/
theorem weight {g h u : Vec K} {m : K} : ∀ (w : List (Vec K)), (∀ q ∈ w, dot g q ≤ m) →
    ∃ n, 0 ≤ n ∧ ∀ q ∈ w, dot g q < m → dot h q - dot h u < n * (m - dot g q) := by
  intro w
  induction w with
  | nil => intro _; exact ⟨0, le_refl _, by simp⟩
  | cons a w ih =>
    intro hw
    obtain ⟨n, hn, hall⟩ := ih fun q hq => hw q (List.mem_cons_of_mem _ hq)
    by_cases ha : dot g a < m
    · have hpos : 0 < m - dot g a := by linarith
      refine ⟨max n ((|dot h a - dot h u| + 1) / (m - dot g a)), le_trans hn (le_max_left _ _), ?_⟩
      intro q hq hlt
      rcases List.mem_cons.1 hq with rfl | hq
      · have h1 := mul_le_mul_of_nonneg_right (le_max_right n ((|dot h q - dot h u| + 1) / (m - dot g q))) (le_of_lt hpos)
        rw [div_mul_cancel₀ _ (ne_of_gt hpos)] at h1
        have := le_abs_self (dot h q - dot h u)
        linarith
      · have h1 := hall q hq hlt
        have h2 := mul_le_mul_of_nonneg_right (le_max_left n ((|dot h a - dot h u| + 1) / (m - dot g a)))
          (show 0 ≤ m - dot g q by linarith)
        linarith
    · refine ⟨n, hn, ?_⟩
      intro q hq hlt
      rcases List.mem_cons.1 hq with rfl | hq
      · exact absurd hlt ha
      · exact hall q hq hlt

/-- A farthest point of the hull is in the hull of the farthest points. -/
theorem inHull_far {w : List (Vec K)} {g u : Vec K} (hu : InHull w u) (hw : ∀ q ∈ w, dot g q ≤ dot g u) (h : Vec K) :
    ∃ q ∈ w, dot g q = dot g u ∧ dot h u ≤ dot h q := by
  by_contra hcon
  push Not at hcon
  obtain ⟨n, hn, hall⟩ := weight (h := h) (u := u) w hw
  obtain ⟨q, hq, hle⟩ := hu (⟨n * g.x + h.x, n * g.y + h.y, n * g.z + h.z⟩)
  have e : ∀ x : Vec K, dot (⟨n * g.x + h.x, n * g.y + h.y, n * g.z + h.z⟩ : Vec K) x = n * dot g x + dot h x := by
    intro x; simp only [dot]; ring
  rw [e, e] at hle
  rcases lt_or_eq_of_le (hw q hq) with h1 | h1
  · have := hall q hq h1
    linarith
  · have := hcon q hq h1
    rw [h1] at hle
    linarith

/-- In a convex polygon that is farthest in two points, there is an edge of farthest points, or they are not on a line. -/
theorem poly_edge {w : List (Vec K)} (hw : ConvexPoly w) {g u v : Vec K} (huv : u ≠ v) (hu : InHull w u) (hv : InHull w v)
    (hmax : ∀ q ∈ w, dot g q ≤ dot g v) (heq : dot g u = dot g v) :
    (∃ y ∈ w, dot g y = dot g v ∧ cross (minus u v) (minus y v) ≠ ⟨0, 0, 0⟩) ∨
    ∃ e ∈ edges w, e.1 ≠ e.2 ∧ dot g e.1 = dot g v ∧ dot g e.2 = dot g v := by
  by_contra hcon
  push Not at hcon
  obtain ⟨hline, hno⟩ := hcon
  have hl0 := minus_ne huv
  -- two farthest corners
  obtain ⟨q, hq, hqg, hqu⟩ := inHull_far hu (by rw [heq]; exact hmax) (minus u v)
  obtain ⟨q', hq', hqg', hqv⟩ := inHull_far hv hmax (minus v u)
  rw [heq] at hqg
  have hne : q' ≠ q := by
    rintro rfl
    have := sq_pos hl0
    simp only [dot, minus] at *
    linarith
  -- the edges at `q` lead away
  obtain ⟨e1, he1, hX1, hX2⟩ := edge_change (X := fun p => p = q) (w := w) ⟨q, hq, rfl⟩ ⟨q', hq', hne⟩
  obtain ⟨e2, he2, hY1, hY2⟩ := edge_change (X := fun p => p ≠ q) (w := w) ⟨q', hq', hne⟩ ⟨q, hq, by simp⟩
  simp only [not_not] at hY2
  obtain ⟨a, b⟩ := e1
  obtain ⟨c, d⟩ := e2
  simp only at hX1 hX2 hY1 hY2
  subst hX1
  subst hY2
  have hb : dot g b < dot g v := by
    rcases lt_or_eq_of_le (hmax b (mem_edges he1).2) with h | h
    · exact h
    · exact absurd h (hno _ he1 (fun e => hX2 e.symm) hqg)
  have hcc : dot g c < dot g v := by
    rcases lt_or_eq_of_le (hmax c (mem_edges he2).1) with h | h
    · exact h
    · exact absurd hqg (hno _ he2 hY1 h)
  obtain ⟨n, k, hcv⟩ := hw
  have t1 := hcv.turns _ he1 q' hq'
  have t2 := hcv.turns _ he2 q' hq'
  have f1 := hcv.flat d hq
  have f2 := hcv.flat b (mem_edges he1).2
  have f3 := hcv.flat c (mem_edges he2).1
  have f4 := hcv.flat q' hq'
  have hnn := hcv.ne
  -- the plane of the polygon
  set l : Vec K := minus q' d with hl
  have hl1 := minus_ne hne
  set e : Vec K := cross l n with he
  have hgl : dot g l = 0 := by rw [hl, dot_minus, hqg, hqg']; ring
  have hnl : dot n l = 0 := by rw [hl, dot_minus, f1, f4]; ring
  have hee : dot e e = dot l l * dot n n := by
    have : dot e e = dot l l * dot n n - dot n l * dot n l := by simp only [he, dot, cross]; ring
    rw [this, hnl]; ring
  have hepos : 0 < dot e e := by rw [hee]; exact mul_pos (sq_pos hl1) hnn
  have key : ∀ x : Vec K, dot n x = 0 → dot e e * dot g x = dot x e * dot g e := by
    intro x hx
    have : dot e e * dot g x = dot x (cross n e) * dot g l + (dot l l * dot n x - dot n l * dot x l) * dot g n + dot x e * dot g e := by
      simp only [he, dot, cross]; ring
    rw [this, hgl, hnl, hx]; ring
  have k1 := key (minus b d) (by rw [dot_minus, f1, f2]; ring)
  have k2 := key (minus d c) (by rw [dot_minus, f1, f3]; ring)
  have s1 : turnOf n d b q' = dot (minus b d) e := by simp only [turnOf, he, hl, dot, cross, minus]; ring
  have s2 : turnOf n c d q' = dot (minus d c) e := by simp only [turnOf, he, hl, dot, cross, minus]; ring
  simp only at t1 t2
  rw [s1] at t1
  rw [s2] at t2
  have n1 : dot e e * dot g (minus b d) < 0 := mul_neg_of_pos_of_neg hepos (by rw [dot_minus, hqg]; linarith)
  have n2 : 0 < dot e e * dot g (minus d c) := mul_pos hepos (by rw [dot_minus, hqg]; linarith)
  rw [k1] at n1
  rw [k2] at n2
  have p1 : dot g e < 0 := by
    by_contra h
    rw [not_lt] at h
    have := mul_nonneg t1 h
    linarith
  have := mul_nonpos_of_nonneg_of_nonpos t2 (le_of_lt p1)
  linarith

end Verif.Hulls
