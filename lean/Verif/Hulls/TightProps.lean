import Verif.Hulls.Tight

/-! Lemma: the grown brush is no greater than needed. -/

namespace Verif.Hulls

open Geom Geom.Spec BrushBsp BrushBsp.Spec Hulls.Spec

variable {K : Type} [Field K] [LinearOrder K] [IsStrictOrderedRing K]

/-- The corner that is farthest in the directions of an octant. -/
theorem corner_dot {hull : Bounds K} {g0 n : Vec K}
    (hx : 0 ≤ (if 0 ≤ g0.x then 1 else -1) * n.x) (hy : 0 ≤ (if 0 ≤ g0.y then 1 else -1) * n.y)
    (hz : 0 ≤ (if 0 ≤ g0.z then 1 else -1) * n.z) :
    dot (corner hull n) n = dot (⟨if 0 ≤ g0.x then hull.maxs.x else hull.mins.x,
      if 0 ≤ g0.y then hull.maxs.y else hull.mins.y, if 0 ≤ g0.z then hull.maxs.z else hull.mins.z⟩ : Vec K) n := by
  have key : ∀ (g n lo hi : K), 0 ≤ (if 0 ≤ g then (1 : K) else -1) * n →
      cornerComp n lo hi * n = (if 0 ≤ g then hi else lo) * n := by
    intro g n lo hi h
    unfold cornerComp
    by_cases hg : 0 ≤ g
    · rw [if_pos hg] at h ⊢
      rcases lt_or_eq_of_le (show 0 ≤ n by linarith) with h0 | h0
      · rw [if_pos h0]
      · rw [← h0]; simp
    · rw [if_neg hg] at h ⊢
      rcases lt_or_eq_of_le (show n ≤ 0 by linarith) with h0 | h0
      · rw [if_neg (by linarith), if_pos h0]
      · rw [h0]; simp
  simp only [dot, corner]
  rw [key _ _ _ _ hx, key _ _ _ _ hy, key _ _ _ _ hz]

theorem comp_times (axis : Nat) (k : K) (v : Vec K) : comp axis (times k v) = k * comp axis v := by
  unfold comp times
  split
  · rfl
  · split <;> rfl

theorem dirVec_inj {a a' : Nat} (ha : a < 3) (ha' : a' < 3) {u u' : Bool} (h : (dirVec a u : Vec K) = dirVec a' u') :
    a = a' ∧ u = u' := by
  by_contra hcon
  have hne : (a, u) ≠ (a', u') := by
    intro e
    exact hcon ⟨congrArg Prod.fst e, congrArg Prod.snd e⟩
  exact comp_other (K := K) ha ha' hne (by rw [← h, comp_dirVec ha])

theorem dirVec_dot {axis : Nat} (ha : axis < 3) (up : Bool) (q : Vec K) :
    dot q (dirVec axis up) = (if up then 1 else -1) * comp axis q := by
  unfold dirVec
  rw [dot_comm, dot_unitVec ha]

theorem not_parted {env : Env K} {b : Bounds K} {fs : List (Face K)} (hc : Spec.Closed fs) (hx : Exact env fs)
    (hb : b = (corners fs).foldl BrushBsp.expand ⟨⟨env.huge, env.huge, env.huge⟩, ⟨-env.huge, -env.huge, -env.huge⟩⟩)
    (hhuge : ∀ v ∈ corners fs, ∀ axis, axis < 3 → |comp axis v| ≤ env.huge)
    (hax : ∀ f ∈ fs, ∀ axis up, axis < 3 → f.plane.normal = dirVec axis up → f.w ≠ [])
    (hne : ∀ f ∈ fs, env.noExpand f.texinfo = false)
    {r ext : List (Face K)} (hinv : AxInv env b fs 6 r) (hslant : ∀ f ∈ ext, NewSlanted env r f)
    (hcase : r ++ ext = addEdges env r ∨ (r.length = 6 ∧ ext = []))
    {hull : Bounds K} (hh : ∃ c, InBox hull c) {x : Vec K} (hin : InSides (hullSides env (some hull) (r ++ ext)) x) :
    ¬ Parted hull fs x := by
  rintro ⟨g0, hpart⟩
  obtain ⟨c0, hcore⟩ := hc.core
  have hc0 : Spec.Inside fs c0 := fun f hf => le_of_lt (hcore f hf)
  have hmemC : ∀ v ∈ corners fs, Spec.Inside fs v := by
    intro v hv
    obtain ⟨f, hf, hv⟩ := List.mem_flatMap.1 hv
    exact hc.verts f hf v hv
  have hcne : corners fs ≠ [] := by
    obtain ⟨v, hv, _⟩ := closed_span hc hc0 ⟨0, 0, 0⟩
    exact List.ne_nil_of_mem hv
  obtain ⟨v, hv, hmax⟩ := argmax (dot g0) (corners fs) hcne
  have hvin := hmemC v hv
  obtain ⟨cb, hcb⟩ := hh
  set c : Vec K := ⟨if 0 ≤ g0.x then hull.maxs.x else hull.mins.x,
      if 0 ≤ g0.y then hull.maxs.y else hull.mins.y, if 0 ≤ g0.z then hull.maxs.z else hull.mins.z⟩ with hcc
  have hcbox : InBox hull c := by
    obtain ⟨⟨x1, x2⟩, ⟨y1, y2⟩, z1, z2⟩ := hcb
    simp only [hcc, InBox]
    refine ⟨?_, ?_, ?_⟩
    · split <;> exact ⟨by linarith, by linarith⟩
    · split <;> exact ⟨by linarith, by linarith⟩
    · split <;> exact ⟨by linarith, by linarith⟩
  set y : Vec K := minus (plus v c) x with hy
  have hy0 : dot y g0 < 0 := by
    have h1 := hpart v (minus x c) hvin (by
      have : minus x (minus x c) = c := by
        cases c; simp [minus]
      unfold InPlayer
      rw [this]
      exact hcbox)
    have : dot y g0 = dot g0 v - dot g0 (minus x c) := by simp only [hy, dot, minus, plus]; ring
    rw [this]; linarith
  -- the cone of the directions in which the same corners are farthest
  set sx : K := if 0 ≤ g0.x then 1 else -1 with hsx
  set sy : K := if 0 ≤ g0.y then 1 else -1 with hsy
  set sz : K := if 0 ≤ g0.z then 1 else -1 with hsz
  have sne : ∀ g : K, (if 0 ≤ g then (1 : K) else -1) ≠ 0 := by
    intro g; split
    · exact one_ne_zero
    · exact neg_ne_zero.2 one_ne_zero
  have snn : ∀ g : K, 0 ≤ (if 0 ≤ g then (1 : K) else -1) * g := by
    intro g; split
    · linarith
    · linarith
  set C : List (Vec K) := unitVec 0 sx :: unitVec 1 sy :: unitVec 2 sz :: (corners fs).map (fun u => minus v u) with hC
  have hCmem : ∀ a ∈ C, (∃ axis s, axis < 3 ∧ s ≠ 0 ∧ a = unitVec axis s) ∨ ∃ u ∈ corners fs, a = minus v u := by
    intro a ha
    simp only [hC, List.mem_cons, List.mem_map] at ha
    rcases ha with rfl | rfl | rfl | ⟨u, hu, rfl⟩
    · exact Or.inl ⟨0, sx, by omega, sne _, rfl⟩
    · exact Or.inl ⟨1, sy, by omega, sne _, rfl⟩
    · exact Or.inl ⟨2, sz, by omega, sne _, rfl⟩
    · exact Or.inr ⟨u, hu, rfl⟩
  obtain ⟨g, hgC, hgy, a, haC, a', haC', hag, hag', hcr⟩ := extreme (C := C) (g := g0) (y := y)
    (by
      intro h hne'
      by_contra hcon
      push Not at hcon
      apply hne'
      have h1 := hcon (unitVec 0 sx) (by simp [hC])
      have h2 := hcon (unitVec 1 sy) (by simp [hC])
      have h3 := hcon (unitVec 2 sz) (by simp [hC])
      rw [dot_unitVec (by omega)] at h1 h2 h3
      have h1' := (mul_eq_zero.1 h1).resolve_left (sne _)
      have h2' := (mul_eq_zero.1 h2).resolve_left (sne _)
      have h3' := (mul_eq_zero.1 h3).resolve_left (sne _)
      cases h
      simp only [comp, if_true, one_ne_zero, if_false, OfNat.ofNat_ne_zero, OfNat.ofNat_ne_one] at h1' h2' h3'
      rw [h1', h2', h3'])
    (by
      intro a ha
      simp only [hC, List.mem_cons, List.mem_map] at ha
      rcases ha with rfl | rfl | rfl | ⟨u, hu, rfl⟩
      · rw [dot_unitVec (by omega)]; exact snn g0.x
      · rw [dot_unitVec (by omega)]; exact snn g0.y
      · rw [dot_unitVec (by omega)]; exact snn g0.z
      · rw [minus_dot, dot_comm v, dot_comm u]; linarith [hmax u hu]) hy0
  have hg0 : g ≠ ⟨0, 0, 0⟩ := by rintro rfl; simp [dot] at hgy
  have hfar : Farthest fs g v := by
    refine ⟨hvin, fun q hq => ?_⟩
    obtain ⟨u, hu, e⟩ := closed_span hc hq g
    have := hgC (minus v u) (by simp only [hC, List.mem_cons, List.mem_map]; exact Or.inr (Or.inr (Or.inr ⟨u, hu, rfl⟩)))
    rw [minus_dot, dot_comm v, dot_comm u] at this
    linarith
  have hfarC : ∀ u ∈ corners fs, dot (minus v u) g = 0 → Farthest fs g u := by
    intro u hu h0
    rw [minus_dot, dot_comm v, dot_comm u] at h0
    exact ⟨hmemC u hu, fun q hq => by have := hfar.2 q hq; linarith⟩
  -- a face that looks in the direction ends it
  obtain ⟨⟨extra, hperm, hnew⟩, hcan⟩ := hinv
  have hrmem : ∀ f, f ∈ r ↔ f ∈ fs ∨ f ∈ extra := fun f => by rw [hperm.mem_iff, List.mem_append]
  have htex : ∀ f ∈ r ++ ext, env.noExpand f.texinfo = false := by
    have h1 : ∀ f ∈ r, env.noExpand f.texinfo = false := by
      intro f hf
      rcases (hrmem f).1 hf with h | h
      · exact hne f h
      · obtain ⟨_, _, ⟨f', hf', e⟩, _⟩ := hnew f h
        rw [e]; exact hne f' hf'
    intro f hf
    rcases List.mem_append.1 hf with h | h
    · exact h1 f h
    · obtain ⟨_, _, ⟨f', hf', e⟩, _⟩ := hslant f h
      rw [e]; exact h1 f' hf'
  have close : ∀ f ∈ r ++ ext, f.plane.distTo v = 0 → ∀ k, 0 < k → g = times k f.plane.normal → False := by
    intro f hf hd k hk hgk
    have hs : moveSide env hull ⟨f.plane, f.bevel, f.texinfo⟩ ∈ hullSides env (some hull) (r ++ ext) := by
      unfold hullSides takeSides
      simp only [Bool.false_and, Bool.not_false, List.filter_true]
      exact List.mem_map.2 ⟨_, List.mem_map.2 ⟨f, hf, rfl⟩, rfl⟩
    have h1 := hin _ hs
    unfold moveSide at h1
    simp only [htex f hf] at h1
    simp only [Bool.false_eq_true, if_false] at h1
    rw [hx.store] at h1
    have oct : ∀ axis s, axis < 3 → unitVec axis s ∈ C → 0 ≤ s * comp axis f.plane.normal := by
      intro axis s ha hm
      have := hgC _ hm
      rw [dot_unitVec ha, hgk, comp_times] at this
      by_contra hcon
      rw [not_le] at hcon
      have h2 := mul_neg_of_pos_of_neg hk hcon
      have e : k * (s * comp axis f.plane.normal) = s * (k * comp axis f.plane.normal) := by ring
      linarith
    have hcd := corner_dot (hull := hull) (g0 := g0) (n := f.plane.normal)
      (oct 0 sx (by omega) (by simp [hC])) (oct 1 sy (by omega) (by simp [hC])) (oct 2 sz (by omega) (by simp [hC]))
    rw [← hcc] at hcd
    simp only [Plane.distTo] at h1 hd
    rw [hcd] at h1
    have h2 : 0 ≤ dot y f.plane.normal := by
      have : dot y f.plane.normal = dot v f.plane.normal + dot c f.plane.normal - dot x f.plane.normal := by
        simp only [hy, dot, minus, plus]; ring
      rw [this]; linarith
    rw [hgk, dot_times] at hgy
    have := mul_nonneg (le_of_lt hk) h2
    linarith
  have closeF : ∀ f ∈ fs, f.plane.distTo v = 0 → ∀ k, 0 < k → g = times k f.plane.normal → False :=
    fun f hf => close f (List.mem_append_left _ ((hrmem f).2 (Or.inl hf)))
  -- the directions of the axes
  have axial : ∀ axis up, axis < 3 → ∀ k, 0 < k → g = times k (dirVec axis up) → False := by
    intro axis up ha k hk hgk
    obtain ⟨f, hf, hfn⟩ := hcan (2 * axis + if up then 1 else 0) (by split <;> omega)
    have e1 : (2 * axis + if up then 1 else 0) / 2 = axis := by split <;> omega
    have e2 : decide ((2 * axis + if up then 1 else 0) % 2 = 1) = up := by
      cases up <;> simp <;> omega
    rw [e1, e2] at hfn
    have hfr : f ∈ r := List.mem_of_getElem? hf
    have hdist : ∀ q, f.plane.distTo q = dot q (dirVec axis up) - f.plane.dist := by
      intro q; rw [Plane.distTo, hfn]
    have hle : ∀ q, Spec.Inside fs q → dot q (dirVec axis up) ≤ dot v (dirVec axis up) := by
      intro q hq
      have := hfar.2 q hq
      rw [hgk, times_dot, times_dot] at this
      have := le_of_mul_le_mul_left this hk
      rwa [dot_comm, dot_comm v]
    apply close f (List.mem_append_left _ hfr) _ k hk (by rw [hfn]; exact hgk)
    rcases (hrmem f).1 hfr with h | h
    · have hwne := hax f h axis up ha hfn
      obtain ⟨u, hu⟩ := List.exists_mem_of_ne_nil _ hwne
      have h1 := hc.own f h u hu
      have h2 := hle u (hc.verts f h u hu)
      have h3 := hvin f h
      rw [hdist] at h1 h3 ⊢
      linarith
    · obtain ⟨_, _, _, axis', up', ha', e⟩ := hnew f h
      rw [hx.store] at e
      have hn' : f.plane.normal = dirVec axis' up' := by
        rw [e]; unfold axialPlane dirVec; cases up' <;> rfl
      rw [hfn] at hn'
      obtain ⟨rfl, rfl⟩ := dirVec_inj ha ha' hn'
      have hbox : InBox b v := by rw [hb]; exact fold_box (fun g => ⟨v, hv, le_refl _⟩)
      have hbc : comp axis b.mins ≤ comp axis v ∧ comp axis v ≤ comp axis b.maxs := by
        obtain ⟨h1, h2, h3⟩ := hbox
        unfold comp
        split
        · exact h1
        · split
          · exact h2
          · exact h3
      obtain ⟨t1, t2⟩ := fold_tight axis (corners fs) ⟨⟨env.huge, env.huge, env.huge⟩, ⟨-env.huge, -env.huge, -env.huge⟩⟩
      rw [← hb] at t1 t2
      have hcv := abs_le.1 (hhuge v hv axis ha)
      have ch : comp axis (⟨env.huge, env.huge, env.huge⟩ : Vec K) = env.huge := by unfold comp; split <;> [rfl; split <;> rfl]
      have ch' : comp axis (⟨-env.huge, -env.huge, -env.huge⟩ : Vec K) = -env.huge := by unfold comp; split <;> [rfl; split <;> rfl]
      simp only [ch, ch'] at t1 t2
      rw [hdist, dirVec_dot ha, e]
      cases up with
      | true =>
        simp only [axialPlane, if_true]
        rcases t1 with t | ⟨u, hu, t⟩
        · linarith [hbc.2]
        · have := hle u (hmemC u hu)
          rw [dirVec_dot ha, dirVec_dot ha] at this
          simp only [if_true] at this
          linarith [hbc.2]
      | false =>
        simp only [axialPlane, Bool.false_eq_true, if_false]
        rcases t2 with t | ⟨u, hu, t⟩
        · linarith [hbc.1]
        · have := hle u (hmemC u hu)
          rw [dirVec_dot ha, dirVec_dot ha] at this
          simp only [Bool.false_eq_true, if_false] at this
          linarith [hbc.1]
  have twoZero : ∀ i j, i < 3 → j < 3 → i ≠ j → comp i g = 0 → comp j g = 0 → False := by
    intro i j hi hj hij h1 h2
    obtain ⟨axis, up, ha, k, hk, e⟩ := axial_of_two hg0 hi hj hij h1 h2
    exact axial axis up ha k hk e
  have zero_of : ∀ axis s, axis < 3 → s ≠ 0 → dot (unitVec axis s) g = 0 → comp axis g = 0 := by
    intro axis s ha hs h
    rw [dot_unitVec ha] at h
    exact (mul_eq_zero.1 h).resolve_left hs
  -- an edge of the brush and an edge of the box
  have mixed : ∀ axis s, axis < 3 → s ≠ 0 → comp axis g = 0 → ∀ u ∈ corners fs, dot (minus v u) g = 0 →
      cross (minus v u) (unitVec axis s) ≠ ⟨0, 0, 0⟩ → False := by
    intro axis s ha hs hz u hu hug hcr
    have hufar := hfarC u hu hug
    have huv : u ≠ v := by
      rintro rfl
      apply hcr
      simp [minus, cross]
    have hvu0 := minus_ne (Ne.symm huv)
    by_cases hsl : Slant (minus u v)
    · set m : Vec K := ⟨(u.x + v.x) / 2, (u.y + v.y) / 2, (u.z + v.z) / 2⟩ with hm
      have hmd : ∀ pl : Plane K, pl.distTo m = (pl.distTo u + pl.distTo v) / 2 := by
        intro pl; simp only [hm, Plane.distTo, dot]; ring
      have hmfar : Farthest fs g m := by
        refine ⟨fun f hf => ?_, fun q hq => ?_⟩
        · rw [hmd]
          have := hufar.1 f hf; have := hvin f hf
          linarith
        · have : dot g m = (dot g u + dot g v) / 2 := by simp only [hm, dot]; ring
          rw [this, dot_eq_of_far hufar hfar]
          have := hfar.2 q hq
          linarith
      have act : ∀ f ∈ fs, f.plane.distTo m = 0 → f.plane.distTo u = 0 ∧ f.plane.distTo v = 0 := by
        intro f hf h0
        rw [hmd] at h0
        have := hufar.1 f hf; have := hvin f hf
        exact ⟨by linarith, by linarith⟩
      by_cases hall : ∀ f ∈ fs, f.plane.distTo m = 0 → ∃ axis up, axis < 3 ∧ f.plane.normal = dirVec axis up
      · obtain ⟨f1, hf1, hd1⟩ := far_active hc hg0 hmfar
        obtain ⟨x1, u1, hx1, e1⟩ := hall f1 hf1 hd1
        obtain ⟨f, hf, hd, k, hk, e⟩ := far_single hc hg0 hmfar (n := dirVec x1 u1) (by
          intro f2 hf2 hd2
          obtain ⟨x2, u2, hx2, e2⟩ := hall f2 hf2 hd2
          obtain ⟨p1, p2⟩ := act f1 hf1 hd1
          obtain ⟨p3, p4⟩ := act f2 hf2 hd2
          have q1 : comp x1 (minus u v) = 0 := by
            have : dot (minus u v) (dirVec x1 u1) = 0 := by
              rw [minus_dot, ← e1]; simp only [Plane.distTo] at p1 p2; linarith
            rw [dirVec_dot hx1] at this
            exact (mul_eq_zero.1 this).resolve_left (by cases u1 <;> simp)
          have q2 : comp x2 (minus u v) = 0 := by
            have : dot (minus u v) (dirVec x2 u2) = 0 := by
              rw [minus_dot, ← e2]; simp only [Plane.distTo] at p3 p4; linarith
            rw [dirVec_dot hx2] at this
            exact (mul_eq_zero.1 this).resolve_left (by cases u2 <;> simp)
          have hx12 : x1 = x2 := by
            by_contra hne'
            unfold Slant at hsl
            clear * - hsl q1 q2 hx1 hx2 hne'
            interval_cases x1 <;> interval_cases x2 <;> simp_all [comp]
          subst hx12
          have hu12 : u1 = u2 := by
            by_contra hne'
            have r1 := hcore f1 hf1
            have r2 := hcore f2 hf2
            simp only [Plane.distTo] at r1 r2 p2 p4
            rw [e1, dirVec_dot hx1] at r1 p2
            rw [e2, dirVec_dot hx1] at r2 p4
            cases u1 <;> cases u2 <;> simp at hne' r1 r2 p2 p4 <;> linarith
          rw [e2, hu12])
        exact closeF f hf (act f hf hd).2 k hk e
      · push Not at hall
        obtain ⟨f, hf, hd, hnax⟩ := hall
        obtain ⟨du, dv⟩ := act f hf hd
        have hful : InHull f.w u := hc.border f hf u hufar.1 du
        have hfvl : InHull f.w v := hc.border f hf v hvin dv
        have hwfar : ∀ q ∈ f.w, dot g q ≤ dot g v := fun q hq => hfar.2 q (hc.verts f hf q hq)
        have far_of : ∀ q ∈ f.w, dot g q = dot g v → Farthest fs g q := fun q hq e =>
          ⟨hc.verts f hf q hq, fun q' hq' => by rw [e]; exact hfar.2 q' hq'⟩
        by_cases hex : ∃ z ∈ f.w, dot g z = dot g v ∧ cross (minus u v) (minus z v) ≠ ⟨0, 0, 0⟩
        · obtain ⟨z, hz1, hz2, hz3⟩ := hex
          obtain ⟨f', hf', hd', k, hk, e⟩ := far_three hc hg0 hufar hfar (far_of z hz1 hz2) hz3
          exact closeF f' hf' hd' k hk e
        · rcases poly_edge (hc.convex f hf) huv hful hfvl hwfar (dot_eq_of_far hufar hfar) with h | ⟨e, he, hne', g1, g2⟩
          · exact hex h
          · push Not at hex
            have m1 := (mem_edges he).1
            have m2 := (mem_edges he).2
            have hu0 := minus_ne huv
            obtain ⟨k1, hk1⟩ := parallel hu0 (hex e.1 m1 g1)
            obtain ⟨k2, hk2⟩ := parallel hu0 (hex e.2 m2 g2)
            have hd12 : minus e.1 e.2 = times (k1 - k2) (minus u v) := by
              simp only [minus, times, Vec.mk.injEq] at hk1 hk2 ⊢
              obtain ⟨a1, a2, a3⟩ := hk1
              obtain ⟨b1, b2, b3⟩ := hk2
              refine ⟨?_, ?_, ?_⟩ <;> linarith
            have hk12 : k1 - k2 ≠ 0 := by
              intro h0
              apply minus_ne hne'
              rw [hd12, h0]
              simp [times]
            have hsle : Slant (minus e.1 e.2) := by rw [hd12]; exact slant_times hk12 hsl
            obtain ⟨_, ⟨kv, hkv, ev⟩, _, h4⟩ := hx.edge f hf e he hsle
            have ev' : env.snap (env.normalize (minus e.1 e.2)).1 = times kv (minus e.1 e.2) := ev
            -- the direction is along the cross product
            have hgd : dot (times kv (minus e.1 e.2)) g = 0 := by
              rw [times_dot, minus_dot, dot_comm _ g, dot_comm _ g, g1, g2]; ring
            have hcr1 : cross (times kv (minus e.1 e.2)) (unitVec axis 1) ≠ ⟨0, 0, 0⟩ := by
              intro h0
              apply hcr
              rw [hd12] at h0
              have hk : kv * (k1 - k2) ≠ 0 := mul_ne_zero (ne_of_gt hkv) hk12
              have e0 : cross (times kv (times (k1 - k2) (minus u v))) (unitVec axis 1) =
                  times (kv * (k1 - k2)) (cross (minus u v) (unitVec axis 1)) := by
                simp only [cross, times, Vec.mk.injEq]; refine ⟨?_, ?_, ?_⟩ <;> ring
              rw [e0] at h0
              have e1 : cross (minus v u) (unitVec axis s) = times (-s) (cross (minus u v) (unitVec axis 1)) := by
                clear * - ha
                interval_cases axis <;> simp [cross, times, minus, unitVec] <;> (try constructor) <;> ring
              rw [e1]
              simp only [times, Vec.mk.injEq, mul_eq_zero, hk, false_or] at h0 ⊢
              exact ⟨Or.inr h0.1, Or.inr h0.2.1, Or.inr h0.2.2⟩
            obtain ⟨k, hgk⟩ := along_cross (g := g) hcr1 hgd (by rw [dot_unitVec ha, hz]; ring)
            have hk0 : k ≠ 0 := by
              rintro rfl
              apply hg0
              rw [hgk]; simp [times]
            obtain ⟨up, ku, hku, hgu⟩ : ∃ up : Bool, ∃ ku, 0 < ku ∧
                g = times ku (cross (times kv (minus e.1 e.2)) (unitVec axis (if up then 1 else -1))) := by
              rcases lt_or_gt_of_ne hk0 with h | h
              · refine ⟨false, -k, by linarith, ?_⟩
                rw [hgk]
                clear * - ha
                interval_cases axis <;> simp [cross, times, unitVec]
              · exact ⟨true, k, h, by simpa using hgk⟩
            obtain ⟨_, kn, hkn, en⟩ := h4 axis (if up then 1 else -1) ha (by cases up <;> simp)
            rw [ev'] at en
            set n := (env.normalize (cross (times kv (minus e.1 e.2)) (unitVec axis (if up then 1 else -1)))).1 with hn
            have hgn : g = times (ku / kn) n := by
              rw [en, hgu]
              have : kn ≠ 0 := ne_of_gt hkn
              simp only [times, Vec.mk.injEq]
              refine ⟨?_, ?_, ?_⟩ <;> field_simp
            have hq : 0 < ku / kn := div_pos hku hkn
            have hfarn : ∀ q, Spec.Inside fs q → dot q n ≤ dot e.1 n := by
              intro q hq'
              have := hfar.2 q hq'
              rw [← g1, hgn, times_dot, times_dot] at this
              have := le_of_mul_le_mul_left this hq
              rwa [dot_comm q, dot_comm e.1]
            have hrw : ∀ f' ∈ r, ∀ p ∈ f'.w, (⟨n, dot e.1 n⟩ : Plane K).distTo p ≤ 0 := by
              intro f' hf' p hp
              rcases (hrmem f').1 hf' with h | h
              · have := hfarn p (hc.verts f' h p hp)
                simp only [Plane.distTo]
                linarith
              · rw [(hnew f' h).1] at hp; simp at hp
            -- the face is not one of the six
            have hfr : f ∈ r := (hrmem f).2 (Or.inl hf)
            obtain ⟨j, hj⟩ := List.mem_iff_getElem?.1 hfr
            have hj6 : 6 ≤ j := by
              by_contra hcon
              obtain ⟨f', hf', hn'⟩ := hcan j (by omega)
              rw [hj] at hf'
              cases hf'
              exact hnax _ _ (by omega) hn'
            have hdrop : f ∈ r.drop 6 := by
              apply List.mem_of_getElem? (i := j - 6)
              rw [List.getElem?_drop, show 6 + (j - 6) = j by omega, hj]
            have hlen : r.length ≠ 6 := by
              have := (List.getElem?_eq_some_iff.1 hj).1
              omega
            have hbp := bevel_present (r := r) hx hf hdrop he hsle ha up (n := n) (by rw [ev']) hrw
            rw [← (hcase.resolve_right (fun h => hlen h.1))] at hbp
            obtain ⟨f', hf', ep⟩ := hbp
            apply close f' hf' _ _ hq (by rw [ep]; exact hgn)
            rw [ep]
            have h1 := hfarn v hvin
            have h2 : dot g e.1 ≤ dot g v := le_of_eq g1
            rw [hgn, times_dot, times_dot] at h2
            have h3 := le_of_mul_le_mul_left h2 hq
            simp only [Plane.distTo]
            rw [dot_comm n, dot_comm n] at h3
            linarith
    · obtain ⟨axis', ha', k, hk, e⟩ := not_slant (minus_ne huv) hsl
      have h0 : dot (minus u v) g = 0 := by
        have : dot (minus u v) g = -dot (minus v u) g := by simp only [dot, minus]; ring
        rw [this, hug]; ring
      rw [e] at h0
      have hz' := zero_of axis' k ha' hk h0
      by_cases hax' : axis = axis'
      · subst hax'
        apply hcr
        have e1 : cross (minus v u) (unitVec axis s) = times (-1) (cross (minus u v) (unitVec axis s)) := by
          simp only [cross, times, minus, Vec.mk.injEq]; refine ⟨?_, ?_, ?_⟩ <;> ring
        rw [e1, e]
        clear * - ha
        interval_cases axis <;> simp [cross, unitVec, times] <;> ring
      · exact twoZero axis axis' ha ha' hax' hz hz'
  rcases hCmem a haC with ⟨i, s, hi, hs, rfl⟩ | ⟨u, hu, rfl⟩
  · rcases hCmem a' haC' with ⟨j, s', hj, hs', rfl⟩ | ⟨u, hu, rfl⟩
    · by_cases hij : i = j
      · subst hij
        apply hcr
        clear * - hi
        interval_cases i <;> simp [cross, unitVec]
      · exact twoZero i j hi hj hij (zero_of i s hi hs hag) (zero_of j s' hj hs' hag')
    · apply mixed i s hi hs (zero_of i s hi hs hag) u hu hag'
      intro h0
      apply hcr
      simp only [cross, Vec.mk.injEq] at h0 ⊢
      exact ⟨by linarith [h0.1], by linarith [h0.2.1], by linarith [h0.2.2]⟩
  · rcases hCmem a' haC' with ⟨j, s', hj, hs', rfl⟩ | ⟨u', hu', rfl⟩
    · exact mixed j s' hj hs' (zero_of j s' hj hs' hag') u hu hag hcr
    · obtain ⟨f, hf, hd, k, hk, e⟩ := far_three hc hg0 (hfarC u hu hag) hfar (hfarC u' hu' hag') (by
        intro h0
        apply hcr
        simp only [cross, minus, Vec.mk.injEq] at h0 ⊢
        exact ⟨by linarith [h0.1], by linarith [h0.2.1], by linarith [h0.2.2]⟩)
      exact closeF f hf hd k hk e

end Verif.Hulls
