import Verif.Emit.EdgesProps

/-!
**C90.** The faces of the BSP file have the vertices and the planes of the polygons of the map, node by node.
-/

namespace Verif.Emit

open Geom Verif.Tree Spec Verif.Tree.Spec

set_option linter.unusedSectionVars false

variable {K C : Type} [Field K] [LinearOrder K] [IsStrictOrderedRing K]

theorem allFragments_drawn (t : FTree C) :
    (allFragments t).filter (fun p => 3 ≤ p.verts.length) = (nodes t).flatMap drawn := by
  unfold allFragments
  rw [List.filter_flatMap]
  rfl

/-- All that is known about a run. -/
theorem emit_run {o : EmitOpts C} {rnd : K → K} (hr : ∀ x, rnd (-x) = -rnd x) {t : FTree C} {s s' : ESt K C} {first : Nat}
    {rs : List (Nat × Nat)} (hx : Exported rnd s.tree) (hp : Pairs s.tree.planes) (hne : s.edges ≠ [])
    (h : emitFaces o rnd t s = .ok (first, rs, s')) :
    ∃ s1, s' = { s1 with hash := [] } ∧ first = s.faces.length ∧
      Step o rnd s.edges.length (allFragments t) s.tree.planes s s1 (allFragments t) ∧
      List.Forall₂ (rangeOk o rnd s.edges.length (allFragments t) s.tree.planes s1) rs (nodes t) := by
  unfold emitFaces at h
  split at h
  · cases h
  rename_i hh
  obtain ⟨⟨rs1, s1⟩, h1, h⟩ := Outcome.bind_eq_ok.1 h
  simp only [Outcome.ok.injEq, Prod.mk.injEq] at h
  obtain ⟨rfl, rfl, rfl⟩ := h
  have hempty : s.hash = [] := by simpa using hh
  have hr0 : Ready rnd s.edges.length (allFragments t) s.tree.planes s :=
    ⟨by intro k n c hm; rw [hempty] at hm; exact absurd hm (by simp), hx, rfl, le_rfl, hne⟩
  obtain ⟨st, hf⟩ := tree_step hr hp t hr0 (fun p hp => hp) h1
  exact ⟨s1, rfl, rfl, st, hf⟩

theorem shows_hash {rnd : K → K} {planes : List (MapPlane K)} {s : ESt K C} {f : MFace} {p : Polygon C}
    {h : List ((Nat × Nat) × (Nat × C))} (hs : Shows rnd planes s f p) : Shows rnd planes { s with hash := h } f p :=
  ⟨hs.count, hs.verts, hs.plane⟩

/-- **C90.** Exporting the faces of a model adds exactly one face for every polygon with at least three vertices, in the
order of the tree. The vertices of each face, as the tools read them through surfedges and edges, are those of its
polygon in the same order, and its plane is that of its polygon. Each node is given the range of its own faces. -/
theorem emit_faces {o : EmitOpts C} {rnd : K → K} (hr : ∀ x, rnd (-x) = -rnd x) {t : FTree C} {s s' : ESt K C} {first : Nat}
    {rs : List (Nat × Nat)} (hx : Exported rnd s.tree) (hp : Pairs s.tree.planes) (hne : s.edges ≠ [])
    (h : emitFaces o rnd t s = .ok (first, rs, s')) :
    first = s.faces.length ∧
    (∃ new, s'.faces = s.faces ++ new ∧ List.Forall₂ (Shows rnd s.tree.planes s') new ((nodes t).flatMap drawn)) ∧
    List.Forall₂ (fun r fs => r.1 + r.2 ≤ s'.faces.length ∧
      List.Forall₂ (Shows rnd s.tree.planes s') ((s'.faces.drop r.1).take r.2) (drawn fs)) rs (nodes t) := by
  obtain ⟨s1, rfl, rfl, st, hf⟩ := emit_run hr hx hp hne h
  refine ⟨rfl, ?_, ?_⟩
  · obtain ⟨new, h1, h2⟩ := st.faces
    rw [allFragments_drawn] at h2
    exact ⟨new, h1, h2.imp fun _ _ hf => shows_hash hf.shows⟩
  · exact hf.imp fun _ _ hr => ⟨hr.2, hr.1.imp fun _ _ hf => shows_hash hf.shows⟩

theorem pairs_of_same {a b : List (MapPlane K)} (h : a.map (·.plane) = b.map (·.plane)) (hp : Pairs b) : Pairs a := by
  intro k x y hx hy
  have h1 := congrArg (fun l => l[2 * k]?) h
  have h2 := congrArg (fun l => l[2 * k + 1]?) h
  simp only [List.getElem?_map, hx, hy, Option.map_some] at h1 h2
  rcases hb : b[2 * k]? with _ | x'
  · rw [hb] at h1; cases h1
  rcases hb' : b[2 * k + 1]? with _ | y'
  · rw [hb'] at h2; cases h2
  rw [hb] at h1
  rw [hb'] at h2
  rw [Option.some.inj h1, Option.some.inj h2]
  exact hp k x' y' hb hb'

/-- **C90.** What was in the file stays: the faces that were there still have the same vertices and planes, and the next
model can be exported. -/
theorem emit_keeps {o : EmitOpts C} {rnd : K → K} (hr : ∀ x, rnd (-x) = -rnd x) {t : FTree C} {s s' : ESt K C} {first : Nat}
    {rs : List (Nat × Nat)} (hx : Exported rnd s.tree) (hp : Pairs s.tree.planes) (hne : s.edges ≠ [])
    (h : emitFaces o rnd t s = .ok (first, rs, s')) :
    (∀ planes f p, Shows rnd planes s f p → Shows rnd planes s' f p) ∧ s.faces <+: s'.faces ∧
    s.edges <+: s'.edges ∧ s.surfedges <+: s'.surfedges ∧ s'.hash = [] ∧ Exported rnd s'.tree ∧
    s'.tree.planes.map (·.plane) = s.tree.planes.map (·.plane) ∧ Pairs s'.tree.planes := by
  obtain ⟨s1, rfl, rfl, st, hf⟩ := emit_run hr hx hp hne h
  obtain ⟨new, h1, -⟩ := st.faces
  exact ⟨fun planes f p hs => shows_hash (shows_mono hs st.edges st.surfPrefix st.dplanes), ⟨new, h1.symm⟩, st.edges, st.surfPrefix, rfl,
    st.exported, st.same, pairs_of_same st.same hp⟩

/-- **C90.** A face uses an edge backwards only if the edge was made for a polygon of the same model with the same
contents in front, and never with `-noedgereuse`; edges of other models and edge 0 are never used; and no edge is used
forwards twice. -/
theorem emit_edge_use {o : EmitOpts C} {rnd : K → K} (hr : ∀ x, rnd (-x) = -rnd x) {t : FTree C} {s s' : ESt K C}
    {first : Nat} {rs : List (Nat × Nat)} (hx : Exported rnd s.tree) (hp : Pairs s.tree.planes) (hne : s.edges ≠ [])
    (h : emitFaces o rnd t s = .ok (first, rs, s')) :
    (∃ new, s'.faces = s.faces ++ new ∧ List.Forall₂ (fun f p => ∀ (i : Nat) (x : Nat × Nat),
      (neighbours p.verts)[i]? = some x → ∃ e, s'.surfedges[f.firstedge + i]? = some e ∧
        UseOk o s.edges.length (allFragments t) s'.edges p.contents e x.1 x.2) new ((nodes t).flatMap drawn)) ∧
    ∃ new, s'.surfedges = s.surfedges ++ new ∧ (new.filter fun e => 0 < e).Nodup := by
  obtain ⟨s1, rfl, rfl, st, hf⟩ := emit_run hr hx hp hne h
  refine ⟨?_, ?_⟩
  · obtain ⟨new, h1, h2⟩ := st.faces
    rw [allFragments_drawn] at h2
    exact ⟨new, h1, h2.imp fun _ _ hf => hf.uses⟩
  · obtain ⟨new, h1, h2, -⟩ := st.surf
    exact ⟨new, h1, h2⟩

/-! ## Success -/

theorem getEdges_ok {o : EmitOpts C} {c : C} (hc : o.valid c = true) : ∀ (l : List (Nat × Nat)) (s : ESt K C),
    ∃ es s', getEdges o c l s = .ok (es, s') ∧ s'.tree = s.tree := by
  intro l
  induction l with
  | nil => intro s; exact ⟨_, _, rfl, rfl⟩
  | cons x l ih =>
    intro s
    obtain ⟨u, v⟩ := x
    have : ∃ e s1, getEdge o c u v s = .ok (e, s1) ∧ s1.tree = s.tree := by
      unfold getEdge
      rw [hc]
      simp only [Bool.not_true, Bool.false_eq_true, if_false]
      split
      · exact ⟨_, _, rfl, rfl⟩
      · exact ⟨_, _, rfl, rfl⟩
    obtain ⟨e, s1, h1, h2⟩ := this
    obtain ⟨es, s2, h3, h4⟩ := ih s1
    refine ⟨e :: es, s2, ?_, h4.trans h2⟩
    simp only [getEdges, h1, Outcome.ok_bind, h3]

/-- The polygon can be exported. -/
def CanEmit (o : EmitOpts C) (planes : Nat) (p : Polygon C) : Prop :=
  o.valid p.contents = true ∧ (o.maxedges = 0 ∨ p.verts.length ≤ o.maxedges) ∧ p.planenum < planes

theorem emitFragments_ok {o : EmitOpts C} {rnd : K → K} {n : Nat} {c : C} : ∀ (l : List (List Nat)) (s : ESt K C),
    (∀ vs ∈ l, CanEmit o s.tree.planes.length ⟨n, c, vs⟩) →
    ∃ s', emitFragments o rnd n c l s = .ok s' ∧ s'.tree.planes.length = s.tree.planes.length := by
  intro l
  induction l with
  | nil => intro s _; exact ⟨_, rfl, rfl⟩
  | cons vs l ih =>
    intro s h
    obtain ⟨h1, h2, h3⟩ := h vs List.mem_cons_self
    obtain ⟨es, s1, g1, g2⟩ := getEdges_ok h1 (neighbours vs) s
    have g3 : emitEdges o c vs s = .ok (es, s1) := by
      unfold emitEdges
      rw [if_neg (by rintro ⟨a, b⟩; rcases h2 with h2 | h2; exact a h2; simp only at h2; omega)]
      exact g1
    have g4 : ∃ s2, emitFragment rnd n vs es s1 = .ok s2 ∧ s2.tree.planes.length = s.tree.planes.length := by
      unfold emitFragment
      split
      · exact ⟨_, rfl, by rw [g2]⟩
      · obtain ⟨k, st', e1, e2⟩ := exportPlane_ok (rnd := rnd) (n := n / 2 * 2) (st := s1.tree) (by
          rw [g2]; simp only at h3; omega)
        rw [e1]
        exact ⟨_, rfl, by simp only; rw [e2, g2]⟩
    obtain ⟨s2, g4, g5⟩ := g4
    obtain ⟨s', g6, g7⟩ := ih s2 (fun v hv => by rw [g5]; exact h v (List.mem_cons_of_mem _ hv))
    refine ⟨s', ?_, g7.trans g5⟩
    simp only [emitFragments, g3, Outcome.ok_bind, g4, g6]

theorem emitNodeFaces_ok {o : EmitOpts C} {rnd : K → K} : ∀ (l : List (FaceIn C)) (s : ESt K C),
    (∀ p ∈ fragments l, CanEmit o s.tree.planes.length p) →
    ∃ s', emitNodeFaces o rnd l s = .ok s' ∧ s'.tree.planes.length = s.tree.planes.length := by
  intro l
  induction l with
  | nil => intro s _; exact ⟨_, rfl, rfl⟩
  | cons f l ih =>
    intro s h
    have hcons : fragments (f :: l) = f.fragments.map (fun vs => ⟨f.planenum, f.contents, vs⟩) ++ fragments l := by
      simp [fragments]
    rw [hcons] at h
    obtain ⟨s1, h1, h2⟩ := emitFragments_ok (o := o) (rnd := rnd) (n := f.planenum) (c := f.contents) f.fragments s
      (fun vs hv => h _ (List.mem_append_left _ (List.mem_map.2 ⟨vs, hv, rfl⟩)))
    obtain ⟨s', h3, h4⟩ := ih s1 (fun p hp => by rw [h2]; exact h p (List.mem_append_right _ hp))
    refine ⟨s', ?_, h4.trans h2⟩
    simp only [emitNodeFaces, h1, Outcome.ok_bind, h3]

theorem emitTree_ok {o : EmitOpts C} {rnd : K → K} : ∀ (t : FTree C) (s : ESt K C),
    (∀ p ∈ allFragments t, CanEmit o s.tree.planes.length p) →
    ∃ rs s', emitTree o rnd t s = .ok (rs, s') ∧ s'.tree.planes.length = s.tree.planes.length := by
  intro t
  induction t with
  | leaf => intro s _; exact ⟨_, _, rfl, rfl⟩
  | node fs a b iha ihb =>
    intro s h
    have hall : allFragments (.node fs a b) = fragments fs ++ (allFragments a ++ allFragments b) := by
      simp [allFragments, Spec.nodes]
    rw [hall] at h
    obtain ⟨s1, h1, e1⟩ := emitNodeFaces_ok (o := o) (rnd := rnd) fs s (fun p hp => h p (by simp [hp]))
    obtain ⟨r2, s2, h2, e2⟩ := iha s1 (fun p hp => by rw [e1]; exact h p (by simp [hp]))
    obtain ⟨r3, s3, h3, e3⟩ := ihb s2 (fun p hp => by rw [e2, e1]; exact h p (by simp [hp]))
    refine ⟨(s.faces.length, s1.faces.length - s.faces.length) :: (r2 ++ r3), s3, ?_, e3.trans (e2.trans e1)⟩
    simp only [emitTree, h1, Outcome.ok_bind, h2, h3]

/-- **C90.** The export fails only for a polygon without valid contents, one with more than `-maxedges` vertices, or one
whose plane is not in the list. -/
theorem emit_succeeds {o : EmitOpts C} {rnd : K → K} {t : FTree C} {s : ESt K C} (hh : s.hash = [])
    (h : ∀ p ∈ allFragments t, CanEmit o s.tree.planes.length p) : ∃ r, emitFaces o rnd t s = .ok r := by
  obtain ⟨rs, s', h1, -⟩ := emitTree_ok (rnd := rnd) t s h
  unfold emitFaces
  rw [if_neg (by simp [hh]), h1]
  exact ⟨_, rfl⟩

/-! ## An example -/

/-- Two opposite planes, exported as they are. -/
def exTree : St ℚ :=
  ⟨[⟨⟨⟨1, 0, 0⟩, 8⟩, .x, none⟩, ⟨⟨⟨-1, 0, 0⟩, -8⟩, .x, none⟩], [], [], [], [], []⟩

/-- A square, a triangle behind it that shares two sides, and a polygon with two vertices. -/
def exFaces : FTree Nat :=
  .node [⟨0, 5, [[1, 2, 3, 4]]⟩, ⟨1, 5, [[3, 2, 1], [7, 8]]⟩] .leaf (.node [⟨0, 6, [[2, 1, 9]]⟩] .leaf .leaf)

def exOpts : EmitOpts Nat := ⟨false, 0, fun _ => true, fun a b => a == b⟩

/-- The square and the triangle share edges 1 and 2; the face with other contents does not. -/
example : (match emitFaces exOpts id exFaces (beginFile exTree) with
    | .ok (n, rs, s) => decide (n = 0 ∧ rs = [(0, 2), (2, 1)] ∧ s.surfedges = [1, 2, 3, 4, -2, -1, 5, 7, 8, 9] ∧
        s.faces.map (fun f => (f.planenum, f.side, f.firstedge, f.numedges)) = [(0, 0, 0, 4), (0, 1, 4, 3), (0, 0, 7, 3)])
    | _ => false) = true := by decide +kernel

/-- The hypotheses hold. -/
example : Exported id exTree ∧ Pairs exTree.planes ∧ (beginFile exTree : ESt ℚ Nat).edges ≠ [] ∧
    (∀ p ∈ allFragments exFaces, CanEmit exOpts exTree.planes.length p) := by
  refine ⟨?_, ?_, by simp [beginFile], ?_⟩
  · intro n m k hm hk
    rcases n with _ | _ | n <;> simp [exTree] at hm <;> subst hm <;> cases hk
  · intro k a b ha hb
    rcases k with _ | k
    · simp [exTree] at ha hb
      subst ha hb
      decide +kernel
    · have : exTree.planes[2 * (k + 1)]? = none := by
        rw [List.getElem?_eq_none]
        simp [exTree]
      rw [this] at ha
      cases ha
  · intro p hp
    simp [allFragments, exFaces, Spec.nodes, fragments] at hp
    rcases hp with rfl | rfl | rfl | rfl <;> simp [CanEmit, exOpts, exTree]

end Verif.Emit
