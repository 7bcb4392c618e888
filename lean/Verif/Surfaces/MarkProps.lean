import Verif.Surfaces.SubdivProps

/-! The leafs that are given a face are those that it touches, on the side to which it faces. -/

namespace Verif.Surfaces

open Verif.Geom Verif.Geom.Spec Spec

set_option linter.unusedSectionVars false

section
variable {K : Type} [Field K] [LinearOrder K] [IsStrictOrderedRing K]

theorem clip_both {eps : K} {pl : Plane K} {w a b : List (Vec K)} (h : clip pl eps true w = (some a, some b)) :
    countSide pl eps w .front ≠ 0 ∧ countSide pl eps w .back ≠ 0 := by
  unfold clip at h
  split at h
  · simp at h
  · split at h
    · simp at h
    · split at h
      · simp at h
      · exact ⟨by assumption, by assumption⟩

theorem countSide_pos {eps : K} {pl : Plane K} {w : List (Vec K)} {s : Side} (h : countSide pl eps w s ≠ 0) :
    ∃ v ∈ w, sideOf eps (pl.distTo v) = s := by
  by_contra hc
  push Not at hc
  exact h (countSide_zero.2 hc)

theorem split_ne {eps : K} (he : 0 ≤ eps) {pl : Plane K} (hu : UnitNormal pl) {f g : Face K} (hne : f.w ≠ [])
    (h : (splitFace eps f pl).1 = some g ∨ (splitFace eps f pl).2 = some g) : g.w ≠ [] := by
  unfold splitFace at h
  split at h
  · rcases h with h | h <;> simp at h
    rw [← h]; exact hne
  · split at h
    · rcases h with h | h <;> simp at h
      rw [← h]; exact hne
    · split at h
      · rcases h with h | h <;> simp at h
        rw [← h]; exact hne
      · rcases h with h | h <;> simp at h
        rw [← h]; exact hne
      · rename_i a b hc
        obtain ⟨h1, h2⟩ := clip_both hc
        rcases h with h | h
        · simp only [Option.some.injEq] at h
          subst h
          obtain ⟨v, hv, hs⟩ := countSide_pos h1
          have := part_keeps he hu (clip_front_part (k := true) (by rw [hc])) v hv (by rw [hs]; simp)
          intro e
          simp only [newFace] at e
          rw [e] at this
          simp at this
        · simp only [Option.some.injEq] at h
          subst h
          obtain ⟨v, hv, hs⟩ := countSide_pos h2
          have := part_keeps he (neg_unit' hu) (clip_back_part he (k := true) (by rw [hc])) v hv
            (not_front_neg he (by rw [hs]; simp))
          intro e
          simp only [newFace] at e
          rw [e] at this
          simp at this
      · rcases h with h | h <;> simp at h

theorem addMarks_complete {eps : K} (he : 0 ≤ eps) {t : Tree K} (hp : PlanesOk t) {f : Face K} (hb : BallOk f)
    {n : Vec K} {k : K} (hc : ConvexRing n k f.w) {q : Vec K} (hq : InHull f.w q) {p' : Path} (hr : Reaches eps t q p')
    (p : Path) : p ++ p' ∈ addMarks eps f t p := by
  induction t generalizing f p p' with
  | leaf =>
    simp only [Reaches] at hr
    subst hr
    simp [addMarks]
  | node pl faces front back ih1 ih2 =>
    obtain ⟨hu, h1, h2⟩ := hp
    unfold addMarks
    match p', hr with
    | false :: p', hr =>
      obtain ⟨hd, hr⟩ := hr
      obtain ⟨g, hg, hgq⟩ := split_covers he hu hb hc hq (Or.inr (lt_of_lt_of_le hd (le_abs_self _)))
      rcases hg with ⟨hg, _⟩ | ⟨_, hg⟩
      · have ip := split_front he hu hb hg
        refine List.mem_append_left _ ?_
        simp only [hg]
        have := ih1 h1 (isPart_ball he hu hb ip) (ring_part he hu hc ip.part) hgq hr (p ++ [false])
        simpa using this
      · linarith
    | true :: p', hr =>
      obtain ⟨hd, hr⟩ := hr
      obtain ⟨g, hg, hgq⟩ := split_covers he hu hb hc hq
        (Or.inr (lt_of_lt_of_le (by linarith : eps < -pl.distTo q) (neg_le_abs _)))
      rcases hg with ⟨_, hg⟩ | ⟨hg, _⟩
      · linarith
      · have ip := split_back he hu hb hg
        have hu' := neg_unit' hu
        refine List.mem_append_right _ ?_
        simp only [hg]
        have := ih2 h2 (isPart_ball he hu' hb ip) (ring_part he hu' hc ip.part) hgq hr (p ++ [true])
        simpa using this

theorem addMarks_sound {eps : K} (he : 0 ≤ eps) {t : Tree K} (hp : PlanesOk t) {f : Face K} (hb : BallOk f)
    (hne : f.w ≠ []) {p leaf : Path} (h : leaf ∈ addMarks eps f t p) :
    ∃ p', leaf = p ++ p' ∧ ∃ w, w ≠ [] ∧ ∀ v ∈ w, InHull f.w v ∧ Touches eps t v p' := by
  induction t generalizing f p with
  | leaf =>
    simp only [addMarks, List.mem_singleton] at h
    subst h
    exact ⟨[], by simp, f.w, hne, fun v hv => ⟨mem_hull hv, rfl⟩⟩
  | node pl faces front back ih1 ih2 =>
    obtain ⟨hu, h1, h2⟩ := hp
    have hu' := neg_unit' hu
    unfold addMarks at h
    rcases List.mem_append.1 h with h | h
    · cases hs : (splitFace eps f pl).1 with
      | none => simp [hs] at h
      | some g =>
        simp only [hs] at h
        have ip := split_front he hu hb hs
        obtain ⟨p', e, w, wne, hw⟩ := ih1 h1 (isPart_ball he hu hb ip) (split_ne he hu hne (Or.inl hs)) h
        refine ⟨false :: p', by rw [e]; simp, w, wne, fun v hv => ?_⟩
        obtain ⟨a, b⟩ := hw v hv
        exact ⟨(isPart_partOf he hu ip).2.2.2.2 v a, inHull_ge a fun u hu2 => (part_vertices he hu ip.part u hu2).1, b⟩
    · cases hs : (splitFace eps f pl).2 with
      | none => simp [hs] at h
      | some g =>
        simp only [hs] at h
        have ip := split_back he hu hb hs
        obtain ⟨p', e, w, wne, hw⟩ := ih2 h2 (isPart_ball he hu' hb ip) (split_ne he hu hne (Or.inr hs)) h
        refine ⟨true :: p', by rw [e]; simp, w, wne, fun v hv => ?_⟩
        obtain ⟨a, b⟩ := hw v hv
        refine ⟨(isPart_partOf he hu' ip).2.2.2.2 v a, ?_, b⟩
        have := inHull_ge a fun u hu2 => (part_vertices he hu' ip.part u hu2).1
        rw [neg_distTo] at this
        linarith

theorem addMarks_prefix {eps : K} {t : Tree K} {f : Face K} {p leaf : Path} (h : leaf ∈ addMarks eps f t p) :
    ∃ p', leaf = p ++ p' := by
  induction t generalizing f p with
  | leaf =>
    simp only [addMarks, List.mem_singleton] at h
    exact ⟨[], by simp [h]⟩
  | node pl faces front back ih1 ih2 =>
    unfold addMarks at h
    rcases List.mem_append.1 h with h | h
    · cases hs : (splitFace eps f pl).1 with
      | none => simp [hs] at h
      | some g =>
        simp only [hs] at h
        obtain ⟨p', e⟩ := ih1 h
        exact ⟨false :: p', by rw [e]; simp⟩
    · cases hs : (splitFace eps f pl).2 with
      | none => simp [hs] at h
      | some g =>
        simp only [hs] at h
        obtain ⟨p', e⟩ := ih2 h
        exact ⟨true :: p', by rw [e]; simp⟩

theorem addMarks_nodup {eps : K} (t : Tree K) (f : Face K) (p : Path) : (addMarks eps f t p).Nodup := by
  induction t generalizing f p with
  | leaf => simp [addMarks]
  | node pl faces front back ih1 ih2 =>
    unfold addMarks
    rw [List.nodup_append]
    refine ⟨?_, ?_, ?_⟩
    · split
      · exact ih1 _ _
      · simp
    · split
      · exact ih2 _ _
      · simp
    · intro a ha b hb e
      subst e
      split at ha
      · split at hb
        · obtain ⟨p1, e1⟩ := addMarks_prefix ha
          obtain ⟨p2, e2⟩ := addMarks_prefix hb
          rw [e1] at e2
          simp at e2
        · simp at hb
      · simp at ha

/-- The side to which a face of a node faces: `true` for the back. -/
def faceSide (f : Face K) : Bool := f.planenum % 2 = 1

theorem markNode_mem {eps : K} {front back : Tree K} {p : Path} {i : Nat} {faces : List (Face K)} {leaf : Path}
    {id : FaceId} : (leaf, id) ∈ markNode eps front back p i faces ↔
      ∃ j f, faces[j]? = some f ∧ id = (p, i + j) ∧
        leaf ∈ addMarks eps (newFace f f.w) (if faceSide f then back else front) (p ++ [faceSide f]) := by
  induction faces generalizing i with
  | nil => simp [markNode]
  | cons f faces ih =>
    have hside : (if f.planenum % 2 = 0 then addMarks eps (newFace f f.w) front (p ++ [false])
        else addMarks eps (newFace f f.w) back (p ++ [true])) =
        addMarks eps (newFace f f.w) (if faceSide f then back else front) (p ++ [faceSide f]) := by
      rcases Nat.mod_two_eq_zero_or_one f.planenum with h | h
      · rw [if_pos h]; simp [faceSide, h]
      · rw [if_neg (by omega)]; simp [faceSide, h]
    unfold markNode
    rw [hside, List.mem_append, ih]
    constructor
    · rintro (h | ⟨j, g, hg, rfl, h⟩)
      · obtain ⟨leaf', h1, h2⟩ := List.mem_map.1 h
        simp only [Prod.mk.injEq] at h2
        obtain ⟨rfl, rfl⟩ := h2
        exact ⟨0, f, rfl, rfl, h1⟩
      · exact ⟨j + 1, g, hg, by rw [Nat.add_assoc, Nat.add_comm 1 j], h⟩
    · rintro ⟨j, g, hg, rfl, h⟩
      cases j with
      | zero =>
        simp only [List.getElem?_cons_zero, Option.some.injEq] at hg
        subst hg
        exact Or.inl (List.mem_map.2 ⟨leaf, h, rfl⟩)
      | succ j =>
        exact Or.inr ⟨j, g, by simpa using hg, by rw [Nat.add_assoc, Nat.add_comm 1 j], h⟩

theorem markNode_nodup {eps : K} (front back : Tree K) (p : Path) (i : Nat) (faces : List (Face K)) :
    (markNode eps front back p i faces).Nodup := by
  induction faces generalizing i with
  | nil => simp [markNode]
  | cons f faces ih =>
    unfold markNode
    rw [List.nodup_append]
    refine ⟨?_, ih _, ?_⟩
    · refine List.Nodup.map (fun a b h => by simpa using h) ?_
      split <;> exact addMarks_nodup _ _ _
    · rintro ⟨l1, id1⟩ h1 ⟨l2, id2⟩ h2 e
      obtain ⟨_, _, e1⟩ := List.mem_map.1 h1
      obtain ⟨j, _, _, e2, _⟩ := markNode_mem.1 h2
      simp only [Prod.mk.injEq] at e e1
      rw [← e.2, ← e1.2] at e2
      simp only [Prod.mk.injEq, true_and] at e2
      omega

theorem makeMarks_mem {eps : K} {t : Tree K} {pre leaf : Path} {id : FaceId} :
    (leaf, id) ∈ makeMarks eps t pre ↔
      ∃ p faces front back j f, nodeAt t p = some (faces, front, back) ∧ faces[j]? = some f ∧ id = (pre ++ p, j) ∧
        leaf ∈ addMarks eps (newFace f f.w) (if faceSide f then back else front) (pre ++ p ++ [faceSide f]) := by
  induction t generalizing pre with
  | leaf => simp [makeMarks, nodeAt]
  | node pl faces front back ih1 ih2 =>
    unfold makeMarks
    rw [List.mem_append, List.mem_append, markNode_mem, ih1, ih2]
    constructor
    · rintro (⟨j, f, h1, h2, h3⟩ | ⟨p, fs, a, b, j, f, h0, h1, h2, h3⟩ | ⟨p, fs, a, b, j, f, h0, h1, h2, h3⟩)
      · exact ⟨[], faces, front, back, j, f, rfl, h1, by simpa using h2, by simpa using h3⟩
      · exact ⟨false :: p, fs, a, b, j, f, h0, h1, by simpa using h2, by simpa using h3⟩
      · exact ⟨true :: p, fs, a, b, j, f, h0, h1, by simpa using h2, by simpa using h3⟩
    · rintro ⟨p, fs, a, b, j, f, h0, h1, h2, h3⟩
      match p, h0 with
      | [], h0 =>
        simp only [nodeAt, Option.some.injEq, Prod.mk.injEq] at h0
        obtain ⟨rfl, rfl, rfl⟩ := h0
        exact Or.inl ⟨j, f, h1, by simpa using h2, by simpa using h3⟩
      | false :: p, h0 =>
        exact Or.inr (Or.inl ⟨p, fs, a, b, j, f, h0, h1, by simpa using h2, by simpa using h3⟩)
      | true :: p, h0 =>
        exact Or.inr (Or.inr ⟨p, fs, a, b, j, f, h0, h1, by simpa using h2, by simpa using h3⟩)

theorem nodeAt_ok {t : Tree K} (hp : PlanesOk t) (hb : BallsOk t) {p : Path} {faces : List (Face K)} {front back : Tree K}
    (h : nodeAt t p = some (faces, front, back)) : (∀ f ∈ faces, BallOk f) ∧ PlanesOk front ∧ PlanesOk back := by
  induction t generalizing p with
  | leaf => simp [nodeAt] at h
  | node pl fs a b ih1 ih2 =>
    match p, h with
    | [], h =>
      simp only [nodeAt, Option.some.injEq, Prod.mk.injEq] at h
      obtain ⟨rfl, rfl, rfl⟩ := h
      exact ⟨hb.1, hp.2.1, hp.2.2⟩
    | false :: p, h => exact ih1 hp.2.1 hb.2.1 h
    | true :: p, h => exact ih2 hp.2.2 hb.2.2 h

/-- The subtree on the side to which the face faces. -/
def facedTree (f : Face K) (front back : Tree K) : Tree K := if f.planenum % 2 = 1 then back else front

/-- A leaf in which there is a point of a face, more than the tolerance away from the planes, is given the face. -/
theorem marks_complete {eps : K} (he : 0 ≤ eps) {t : Tree K} (hp : PlanesOk t) (hb : BallsOk t) {p : Path}
    {faces : List (Face K)} {front back : Tree K} (hn : nodeAt t p = some (faces, front, back)) {i : Nat} {f : Face K}
    (hf : faces[i]? = some f) (hc : ∃ n k, ConvexRing n k f.w) {q : Vec K} (hq : InHull f.w q) {p' : Path}
    (hr : Reaches eps (facedTree f front back) q p') :
    (p ++ decide (f.planenum % 2 = 1) :: p', (p, i)) ∈ makeMarks eps t [] := by
  obtain ⟨b1, b2, b3⟩ := nodeAt_ok hp hb hn
  obtain ⟨n, k, hc⟩ := hc
  refine makeMarks_mem.2 ⟨p, faces, front, back, i, f, hn, hf, by simp, ?_⟩
  have hpl : PlanesOk (if faceSide f then back else front) := by split <;> assumption
  have htree : (if faceSide f then back else front) = facedTree f front back := by
    unfold faceSide facedTree; simp
  have := addMarks_complete (f := newFace f f.w) he hpl (b1 f (List.mem_of_getElem? hf)) hc hq (by rw [htree]; exact hr)
    (p ++ [faceSide f])
  simpa [faceSide] using this

/-- A leaf that is given a face is on the side to which it faces, and a polygon that is a part of the face lies in the leaf,
but for the tolerance. -/
theorem marks_sound {eps : K} (he : 0 ≤ eps) {t : Tree K} (hp : PlanesOk t) (hb : BallsOk t) {leaf p : Path} {i : Nat}
    (h : (leaf, (p, i)) ∈ makeMarks eps t []) :
    ∃ faces front back f p', nodeAt t p = some (faces, front, back) ∧ faces[i]? = some f ∧
      leaf = p ++ decide (f.planenum % 2 = 1) :: p' ∧
      (f.w ≠ [] → ∃ w, w ≠ [] ∧ ∀ v ∈ w, InHull f.w v ∧ Touches eps (facedTree f front back) v p') := by
  obtain ⟨p1, faces, front, back, j, f, h0, h1, h2, h3⟩ := makeMarks_mem.1 h
  simp only [List.nil_append, Prod.mk.injEq] at h2 h3
  obtain ⟨rfl, rfl⟩ := h2
  obtain ⟨b1, b2, b3⟩ := nodeAt_ok hp hb h0
  have hpl : PlanesOk (if faceSide f then back else front) := by split <;> assumption
  have htree : (if faceSide f then back else front) = facedTree f front back := by
    unfold faceSide facedTree; simp
  obtain ⟨p', e⟩ := addMarks_prefix h3
  refine ⟨faces, front, back, f, p', h0, h1, by rw [e]; simp [faceSide], fun hne => ?_⟩
  obtain ⟨p2, e2, w, wne, hw⟩ := addMarks_sound (f := newFace f f.w) he hpl (b1 f (List.mem_of_getElem? h1)) hne h3
  have : p2 = p' := by rw [e] at e2; simpa using e2.symm
  subst this
  exact ⟨w, wne, fun v hv => by rw [← htree]; exact hw v hv⟩

/-- No leaf is given a face twice. -/
theorem marks_nodup {eps : K} (t : Tree K) (pre : Path) : (makeMarks eps t pre).Nodup := by
  induction t generalizing pre with
  | leaf => simp [makeMarks]
  | node pl faces front back ih1 ih2 =>
    unfold makeMarks
    rw [List.nodup_append, List.nodup_append]
    refine ⟨markNode_nodup _ _ _ _ _, ⟨ih1 _, ih2 _, ?_⟩, ?_⟩
    · rintro ⟨l1, id1⟩ h1 ⟨l2, id2⟩ h2 e
      obtain ⟨p1, _, _, _, _, _, _, _, e1, _⟩ := makeMarks_mem.1 h1
      obtain ⟨p2, _, _, _, _, _, _, _, e2, _⟩ := makeMarks_mem.1 h2
      simp only [Prod.mk.injEq] at e
      rw [e1, e2] at e
      simp at e
    · rintro ⟨l1, id1⟩ h1 ⟨l2, id2⟩ h2 e
      obtain ⟨_, _, _, e1, _⟩ := markNode_mem.1 h1
      simp only [Prod.mk.injEq] at e
      rcases List.mem_append.1 h2 with h2 | h2
      · obtain ⟨p2, _, _, _, _, _, _, _, e2, _⟩ := makeMarks_mem.1 h2
        rw [e1, e2] at e
        simp at e
      · obtain ⟨p2, _, _, _, _, _, _, _, e2, _⟩ := makeMarks_mem.1 h2
        rw [e1, e2] at e
        simp at e

end

/-! ### Example: a face across two leafs -/

namespace Example

/-- A face on `z = 0`, behind which nothing is split; in front of it there is a plane `x = 500`. -/
def tree : Tree ℚ :=
  .node ⟨⟨0, 0, 1⟩, 0⟩ [face] (.node ⟨⟨1, 0, 0⟩, 500⟩ [] .leaf .leaf) .leaf

theorem tree_planes : PlanesOk tree := by
  refine ⟨by norm_num [UnitNormal, dot], ⟨by norm_num [UnitNormal, dot], trivial, trivial⟩, trivial⟩

theorem tree_balls : BallsOk tree := by
  refine ⟨?_, ⟨by simp, trivial, trivial⟩, trivial⟩
  intro f hf
  rw [List.mem_singleton.1 hf]
  exact face_ball

/-- Both leafs in front are given the face. -/
example : makeMarks (1 / 10000) tree [] = [([false, false], ([], 0)), ([false, true], ([], 0))] := by decide +kernel

example : ([] ++ decide (face.planenum % 2 = 1) :: [true], (([] : Path), 0)) ∈ makeMarks (1 / 10000) tree [] :=
  marks_complete (by norm_num) tree_planes tree_balls (p := []) rfl rfl ⟨_, _, face_ring⟩
    (q := ⟨0, 100, 0⟩) (mem_hull (by simp [face])) ⟨by norm_num [Plane.distTo, dot], rfl⟩

end Example

end Verif.Surfaces
