import Verif.Hulls.TightProps

/-!
C140: The clipping hull of a brush has every place at which the box of the player meets the brush, up to the tolerances.
C141: Without tolerances it has no other place.
C142: The planes that are added leave the brush of the point hull as it is.
-/

namespace Verif.Hulls

open Geom Geom.Spec BrushBsp BrushBsp.Spec Hulls.Spec

variable {K : Type} [Field K] [LinearOrder K] [IsStrictOrderedRing K]

/-- The brush with its polygons, and the bounds. -/
theorem calc_texinfo {env : Env K} {fs : List (Face K)} {f : Face K} (hf : f ∈ (calculateBounds env fs).1) :
    ∃ f' ∈ fs, f.plane = f'.plane ∧ f.texinfo = f'.texinfo ∧ f.bevel = f'.bevel := by
  unfold calculateBounds at hf
  simp only [List.mem_map] at hf
  obtain ⟨x, hx, rfl⟩ := hf
  refine ⟨x.1, mem_zip hx, ?_⟩
  unfold faceWinding
  split <;> exact ⟨rfl, rfl, rfl⟩

theorem closed_ne {fs : List (Face K)} (h : Spec.Closed fs) : fs ≠ [] := by
  rintro rfl
  obtain ⟨r, hr⟩ := h.bounded
  obtain ⟨t, _, _, f, hf, _⟩ := exit hr (p := ⟨0, 0, 0⟩) (u := ⟨1, 0, 0⟩) (fun f hf => by simp at hf) (by simp [dot])
  simp at hf

theorem corner_le {hull : Bounds K} {c n : Vec K} (h : InBox hull c) : dot c n ≤ dot (corner hull n) n := by
  have key : ∀ (c n lo hi : K), lo ≤ c → c ≤ hi → c * n ≤ cornerComp n lo hi * n := by
    intro c n lo hi h1 h2
    unfold cornerComp
    split
    · rename_i h; exact mul_le_mul_of_nonneg_right h2 (le_of_lt h)
    · split
      · rename_i h; exact mul_le_mul_of_nonpos_right h1 (le_of_lt h)
      · have : n = 0 := le_antisymm (by linarith) (by linarith)
        rw [this]; simp
  obtain ⟨⟨x1, x2⟩, ⟨y1, y2⟩, z1, z2⟩ := h
  simp only [dot, corner]
  have := key c.x n.x _ _ x1 x2
  have := key c.y n.y _ _ y1 y2
  have := key c.z n.z _ _ z1 z2
  linarith

/-- C140. A brush with a point strictly inside, in the world, none of whose faces says that it is not to be grown, is read
with its faces `fs`: whenever the box of the player at a place meets the brush, the place is behind all sides of the
brush for that hull, up to the option epsilon and twice the tolerance `tol` of the table of planes. No step is undefined.

`hbase`: what the base polygons of planes are like (C96 proves it of `from_plane`). `hdeg`: no face that has no polygon
touches the brush. `W`: where the tolerance of the table holds. -/
theorem clip_hull_covers {env : Env K} {fs : List (Face K)} {r : K}
    (hbase : ∀ f ∈ fs, ConvexPoly (env.base f.plane) ∧ (∀ v ∈ env.base f.plane, f.plane.distTo v = 0) ∧
      ∀ q, f.plane.distTo q = 0 → dot q q ≤ r → InHull (env.base f.plane) q)
    (hnew : ∀ f ∈ fs, f.bevel = false ∧ f.w = []) (hunit : ∀ f ∈ fs, UnitNormal f.plane)
    (hcore : ∃ c, ∀ f ∈ fs, f.plane.distTo c < 0) (hworld : ∀ q, Spec.Inside fs q → dot q q ≤ r)
    (hdeg : ∀ f ∈ (calculateBounds env fs).1, f.w = [] → ∀ q, Spec.Inside fs q → f.plane.distTo q < 0)
    (hgrow : ∀ f ∈ fs, env.noExpand f.texinfo = false) {W : Vec K → Prop} (hW : ∀ q, Spec.Inside fs q → W q) {tol : K}
    (htol : ∀ p q, W q → |(env.store p).distTo q - p.distTo q| ≤ tol)
    (haxial : ∀ p : Plane K, ∀ axis (d : K), axis < 3 → d = 1 ∨ d = -1 → p.normal = unitVec axis d →
      (env.store p).normal = unitVec axis d)
    (heps : 0 ≤ env.epsilon) (hull : Bounds K) :
    ∃ faces, addBevels env (calculateBounds env fs).2 (calculateBounds env fs).1 = .ok faces ∧
      ∀ at_ q, W at_ → Spec.Inside fs q → InPlayer hull at_ q →
        ∀ s ∈ hullSides env (some hull) faces, s.plane.distTo at_ ≤ env.epsilon + 2 * tol := by
  have hcl := calc_closed hbase hnew hunit hcore hworld hdeg
  have hbd := calc_bounds (env := env) (fun f hf => (hnew f hf).2)
  set fs1 := (calculateBounds env fs).1 with hfs1
  set b := (calculateBounds env fs).2 with hb
  obtain ⟨rr, ext, _, e2, ⟨⟨extra, hperm, hex⟩, _⟩, _, hsl⟩ := addBevels_ok (env := env) (b := b) (closed_ne hcl)
    hcl.unit (by
      intro axis up ha
      unfold dirVec
      cases up with
      | false => exact haxial _ axis (-1) ha (Or.inr rfl) rfl
      | true => exact haxial _ axis 1 ha (Or.inl rfl) rfl)
  refine ⟨rr ++ ext, e2, ?_⟩
  intro at_ q hWa hq hpl s hs
  have htol0 : 0 ≤ tol := le_trans (abs_nonneg _) (htol ⟨⟨0, 0, 0⟩, 0⟩ q (hW q hq))
  have hq1 : Spec.Inside fs1 q := calc_inside.2 hq
  have hspan := closed_span hcl hq1
  -- the point is behind every face
  have hbehind : ∀ f ∈ rr ++ ext, f.plane.distTo q ≤ env.epsilon + tol := by
    intro f hf
    rcases List.mem_append.1 hf with hf | hf
    · rcases List.mem_append.1 (hperm.mem_iff.1 hf) with hf | hf
      · have := hq1 f hf; linarith
      · obtain ⟨_, _, _, axis, up, ha, e⟩ := hex f hf
        have h1 := (abs_le.1 (htol (axialPlane b axis up) q (hW q hq))).2
        rw [← e] at h1
        have hbox : InBox b q := by rw [hbd]; exact fold_box hspan
        have h2 : (axialPlane b axis up).distTo q ≤ 0 := by
          obtain ⟨⟨x1, x2⟩, ⟨y1, y2⟩, z1, z2⟩ := hbox
          clear * - ha x1 x2 y1 y2 z1 z2
          interval_cases axis <;> cases up <;>
            simp [axialPlane, Plane.distTo, dot, unitVec, comp] <;> linarith
        linarith
    · obtain ⟨_, _, _, pl, e, hall⟩ := hsl f hf
      have h1 := (abs_le.1 (htol pl q (hW q hq))).2
      rw [← e] at h1
      have h2 : pl.distTo q ≤ env.epsilon := by
        apply inHull_le hspan
        intro v hv
        obtain ⟨g, hg, hv⟩ := List.mem_flatMap.1 hv
        exact hall g (hperm.mem_iff.2 (List.mem_append_left _ hg)) v hv
      linarith
  have htex : ∀ f ∈ rr ++ ext, env.noExpand f.texinfo = false := by
    have h0 : ∀ f ∈ fs1, env.noExpand f.texinfo = false := by
      intro f hf
      obtain ⟨f', hf', _, e, _⟩ := calc_texinfo hf
      rw [e]; exact hgrow f' hf'
    have h1 : ∀ f ∈ rr, env.noExpand f.texinfo = false := by
      intro f hf
      rcases List.mem_append.1 (hperm.mem_iff.1 hf) with h | h
      · exact h0 f h
      · obtain ⟨_, _, ⟨f', hf', e⟩, _⟩ := hex f h
        rw [e]; exact h0 f' hf'
    intro f hf
    rcases List.mem_append.1 hf with h | h
    · exact h1 f h
    · obtain ⟨_, _, ⟨f', hf', e⟩, _⟩ := hsl f h
      rw [e]; exact h1 f' hf'
  -- the side is moved by the farthest corner
  unfold hullSides takeSides at hs
  simp only [Bool.false_and, Bool.not_false, List.filter_true, List.mem_map, exists_exists_and_eq_and] at hs
  obtain ⟨f, hf, rfl⟩ := hs
  unfold moveSide
  simp only [htex f hf, Bool.false_eq_true, if_false]
  have h1 := (abs_le.1 (htol ⟨f.plane.normal, f.plane.dist + dot (corner hull f.plane.normal) f.plane.normal⟩ at_ hWa)).2
  have h2 := corner_le (n := f.plane.normal) hpl
  have h3 := hbehind f hf
  rw [minus_dot] at h2
  simp only [Plane.distTo] at h1 h3 ⊢
  linarith

/-- C141. If no tolerance plays a role, the only places behind all sides of the brush for a hull are those at which no
plane parts the brush from the box of the player. The brush is as in C140; besides, every face along an axis has a
polygon. -/
theorem clip_hull_tight {env : Env K} {fs : List (Face K)} {r : K}
    (hbase : ∀ f ∈ fs, ConvexPoly (env.base f.plane) ∧ (∀ v ∈ env.base f.plane, f.plane.distTo v = 0) ∧
      ∀ q, f.plane.distTo q = 0 → dot q q ≤ r → InHull (env.base f.plane) q)
    (hnew : ∀ f ∈ fs, f.bevel = false ∧ f.w = []) (hunit : ∀ f ∈ fs, UnitNormal f.plane)
    (hcore : ∃ c, ∀ f ∈ fs, f.plane.distTo c < 0) (hworld : ∀ q, Spec.Inside fs q → dot q q ≤ r)
    (hdeg : ∀ f ∈ (calculateBounds env fs).1, f.w = [] → ∀ q, Spec.Inside fs q → f.plane.distTo q < 0)
    (hgrow : ∀ f ∈ fs, env.noExpand f.texinfo = false) (hexact : Exact env (calculateBounds env fs).1)
    (hhuge : ∀ q, Spec.Inside fs q → ∀ axis, axis < 3 → |comp axis q| ≤ env.huge)
    (haxial : ∀ f ∈ (calculateBounds env fs).1, ¬ Slant f.plane.normal → f.w ≠ [])
    {hull : Bounds K} (hhull : ∃ c, InBox hull c) :
    ∃ faces, addBevels env (calculateBounds env fs).2 (calculateBounds env fs).1 = .ok faces ∧
      ∀ at_, InSides (hullSides env (some hull) faces) at_ → ¬ Parted hull fs at_ := by
  have hcl := calc_closed hbase hnew hunit hcore hworld hdeg
  have hbd := calc_bounds (env := env) (fun f hf => (hnew f hf).2)
  obtain ⟨rr, ext, _, e2, hinv, hcase, hsl⟩ := addBevels_ok (env := env) (b := (calculateBounds env fs).2) (closed_ne hcl)
    hcl.unit (by
      intro axis up ha
      rw [hexact.store]
      unfold dirVec
      cases up <;> rfl)
  refine ⟨rr ++ ext, e2, ?_⟩
  intro at_ hin hpart
  refine not_parted hcl hexact hbd ?_ ?_ ?_ hinv hsl hcase hhull hin ?_
  · intro v hv axis ha
    obtain ⟨f, hf, hv⟩ := List.mem_flatMap.1 hv
    exact hhuge v (calc_inside.1 (hcl.verts f hf v hv)) axis ha
  · intro f hf axis up ha e
    apply haxial f hf
    rw [e]
    unfold dirVec Slant
    clear * - ha
    interval_cases axis <;> simp [unitVec]
  · intro f hf
    obtain ⟨f', hf', _, e, _⟩ := calc_texinfo hf
    rw [e]; exact hgrow f' hf'
  · obtain ⟨g, hg⟩ := hpart
    exact ⟨g, fun q p hq hp => hg q p (calc_inside.1 hq) hp⟩

/-- C142. The first six faces look along the axes, backwards and forwards, in order; faces that are added are marked, and
without them the faces are the ones that were there, in some order. So the sides for the point hull are those of the
brush as it was drawn. -/
theorem point_hull_unchanged {env : Env K} {b : Bounds K} {fs : List (Face K)} (hne : fs ≠ [])
    (hnew : ∀ f ∈ fs, f.bevel = false) (hunit : ∀ f ∈ fs, UnitNormal f.plane)
    (haxial : ∀ p : Plane K, ∀ axis (d : K), axis < 3 → d = 1 ∨ d = -1 → p.normal = unitVec axis d →
      (env.store p).normal = unitVec axis d) :
    ∃ faces, addBevels env b fs = .ok faces ∧
      (faces.filter fun f => !f.bevel).Perm fs ∧
      (hullSides env none faces).Perm (fs.map fun f => ⟨f.plane, false, f.texinfo⟩) ∧
      (∀ f ∈ faces, f.bevel = true → f.w = []) ∧
      (faces.take 6).map (·.plane.normal) =
        [⟨-1, 0, 0⟩, ⟨1, 0, 0⟩, ⟨0, -1, 0⟩, ⟨0, 1, 0⟩, ⟨0, 0, -1⟩, ⟨0, 0, 1⟩] := by
  obtain ⟨rr, ext, _, e2, ⟨⟨extra, hperm, hex⟩, hcan⟩, hcase, hsl⟩ := addBevels_ok (env := env) (b := b) hne hunit (by
      intro axis up ha
      unfold dirVec
      cases up with
      | false => exact haxial _ axis (-1) ha (Or.inr rfl) rfl
      | true => exact haxial _ axis 1 ha (Or.inl rfl) rfl)
  have f1 : ∀ l : List (Face K), (∀ f ∈ l, f.bevel = true) → l.filter (fun f => !f.bevel) = [] := by
    intro l hl
    rw [List.filter_eq_nil_iff]
    intro f hf
    simp [hl f hf]
  have f2 : fs.filter (fun f => !f.bevel) = fs := by
    rw [List.filter_eq_self]
    intro f hf
    simp [hnew f hf]
  have hfil : ((rr ++ ext).filter fun f => !f.bevel).Perm fs := by
    rw [List.filter_append, f1 ext (fun f hf => (hsl f hf).2.1), List.append_nil]
    have := hperm.filter (fun f => !f.bevel)
    rwa [List.filter_append, f1 extra (fun f hf => (hex f hf).2.1), List.append_nil, f2] at this
  refine ⟨rr ++ ext, e2, hfil, ?_, ?_, ?_⟩
  · unfold hullSides takeSides
    simp only [Bool.true_and]
    have h1 := hfil.map (fun f : Face K => (⟨f.plane, f.bevel, f.texinfo⟩ : Side K))
    have h2 : fs.map (fun f : Face K => (⟨f.plane, f.bevel, f.texinfo⟩ : Side K)) =
        fs.map fun f => ⟨f.plane, false, f.texinfo⟩ := by
      apply List.map_congr_left
      intro f hf
      rw [hnew f hf]
    rwa [h2] at h1
  · intro f hf hbv
    rcases List.mem_append.1 hf with hf | hf
    · rcases List.mem_append.1 (hperm.mem_iff.1 hf) with hf | hf
      · rw [hnew f hf] at hbv; cases hbv
      · exact (hex f hf).1
    · exact (hsl f hf).1
  · have hlen : 6 ≤ rr.length := by
      obtain ⟨f, e, _⟩ := hcan 5 (by omega)
      have := (List.getElem?_eq_some_iff.1 e).1
      omega
    rw [List.take_append_of_le_length hlen]
    obtain ⟨a0, h0, n0⟩ := hcan 0 (by omega)
    obtain ⟨a1, h1, n1⟩ := hcan 1 (by omega)
    obtain ⟨a2, h2, n2⟩ := hcan 2 (by omega)
    obtain ⟨a3, h3, n3⟩ := hcan 3 (by omega)
    obtain ⟨a4, h4, n4⟩ := hcan 4 (by omega)
    obtain ⟨a5, h5, n5⟩ := hcan 5 (by omega)
    rcases rr with _ | ⟨b0, _ | ⟨b1, _ | ⟨b2, _ | ⟨b3, _ | ⟨b4, _ | ⟨b5, rest⟩⟩⟩⟩⟩⟩ <;> try (simp at hlen; done)
    simp only [List.getElem?_cons_zero, List.getElem?_cons_succ, Option.some.injEq] at h0 h1 h2 h3 h4 h5
    subst h0 h1 h2 h3 h4 h5
    simp only [List.take_succ_cons, List.take_zero, List.map_cons, List.map_nil, n0, n1, n2, n3, n4, n5]
    simp [dirVec, unitVec]

end Verif.Hulls
