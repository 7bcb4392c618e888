import Verif.Faces.LimitProps
import Verif.Faces.FanLemmas
import Verif.Faces.RetopoLemmas
import Mathlib.Algebra.Order.Field.Rat
import Mathlib.Tactic.Linarith

/-! The fragments of a face keep its outline and its area (C87, C88). -/

namespace Verif.Faces

open Spec

variable {D : Type}

theorem flow_range' (A : Type) [AddCommGroup A] (φ : Nat → Nat → A) (n : Nat) (hn : 2 ≤ n) :
    flow φ (List.range n) = path φ 0 (List.range' 1 (n - 1)) + φ (n - 1) 0 := by
  obtain ⟨m, rfl⟩ : ∃ m, n = m + 2 := ⟨n - 2, by omega⟩
  have e1 : List.range (m + 2) = 0 :: (List.range' 1 m ++ [m + 1]) := by
    rw [List.range_eq_range', List.range'_succ, ← List.range'_append_1]
    simp [Nat.add_comm]
  have e2 : List.range' 1 (m + 2 - 1) = List.range' 1 m ++ [m + 1] := by
    have : m + 2 - 1 = m + 1 := by omega
    rw [this, ← List.range'_append_1]
    simp [Nat.add_comm]
  rw [e1, e2]
  simp only [flow, List.append_assoc, List.singleton_append]
  rw [path_append φ 0 (m + 1) (List.range' 1 m) [0]]
  simp [path]

theorem map_range_getD (l : List Nat) : (List.range l.length).map (fun v => l.getD v 0) = l := by
  apply List.ext_getElem
  · simp
  · intro i h1 h2
    simp [List.getD_eq_getElem?_getD, h2]

/-- C87: triangulation of a face with at least three vertices ends, and its fragments cover the same region as the face,
with as few triangles as possible. -/
theorem mwt_face_region (w : Weights D) (hw : WeightsOk w) (pick : List Nat → Nat) (hpick : ∀ l, l ≠ [] → pick l ∈ l)
    (face : List Nat) (h3 : 3 ≤ face.length) :
    ∃ (N : Nat) (frags : List (List Nat)), (∀ fuel, N ≤ fuel → mwtFace w pick fuel face = some (.ok frags)) ∧
      frags ≠ [] ∧ (∀ p ∈ frags, 3 ≤ p.length) ∧ SameRegion frags [face] ∧ triangles frags = face.length - 2 := by
  obtain ⟨N, tris, t, q1, q2, q3, -⟩ := minWeightTris_spec w hw face.length (by omega)
  have hs : ∀ x ∈ tris, Sorted face.length x := by
    intro x hx
    have := below_tris q2 x (q3.mem_iff.mp hx)
    exact ⟨this.2.1, this.2.2.1, by omega⟩
  obtain ⟨r, r1, r2, r3, r4, r5⟩ := compress_spec pick hpick face tris.length tris [] (Nat.le_refl _) hs
  have hlen : tris.length = face.length - 2 := by
    have := q1 N (Nat.le_refl _)
    unfold minWeightTris at this
    rw [Option.map_eq_some_iff] at this
    obtain ⟨ts, -, hts⟩ := this
    split at hts
    · rename_i h
      injection hts with hts
      rw [← hts, h]
    · cases hts
  refine ⟨max N tris.length, r, ?_, ?_, r2, ?_, by rw [r4, hlen]⟩
  · intro fuel hf
    unfold mwtFace
    rw [q1 fuel (by omega)]
    simpa using r1 fuel (by omega)
  · rintro rfl
    simp [triangles] at r4
    omega
  · refine sameRegion_of_flows ?_ ?_
    · intro A _ φ hφ
      rw [r5 A φ hφ, flows_single]
      have e := below_flow _ (anti_comp hφ fun v => face.getD v 0) q2
      rw [Nat.zero_add, Nat.sub_zero, ← flow_range' A _ face.length (by omega), ← flow_map, map_range_getD] at e
      rw [← e, ← (q3.map _).sum_eq]
      congr 1
    · intro v hv
      obtain ⟨p, hp, hvp⟩ := List.mem_flatten.mp hv
      simpa using r3 p hp v hvp

/-- A rotated polygon covers the same region. -/
theorem rotated_region (face : List Nat) (i : Nat) : SameRegion [face.drop i ++ face.take i] [face] := by
  refine sameRegion_of_flows ?_ ?_
  · intro A _ φ _
    rw [flows_single, flows_single, flow_rotate, List.take_append_drop]
  · intro v hv
    simp only [List.flatten_cons, List.flatten_nil, List.append_nil, List.mem_append] at hv ⊢
    rcases hv with hv | hv
    · exact List.mem_of_mem_drop hv
    · exact List.mem_of_mem_take hv

theorem getD_rotated (face : List Nat) (i x : Nat) (hi : i < face.length) (hx : x < face.length) :
    (face.drop i ++ face.take i).getD x 0 = at' face (i + x) := by
  unfold at'
  rw [List.getD_eq_getElem?_getD, List.getD_eq_getElem?_getD]
  congr 1
  by_cases h : x < face.length - i
  · rw [List.getElem?_append_left (by simpa using h), List.getElem?_drop, Nat.mod_eq_of_lt (by omega)]
  · rw [List.getElem?_append_right (by simpa using h), List.length_drop, List.getElem?_take, if_pos (by omega),
      Nat.mod_eq_sub_mod (by omega), Nat.mod_eq_of_lt (by omega)]
    congr 1
    omega

/-- C88: when a rotation is found, all the triangles that the rotated face is drawn with are valid. -/
theorem rotation_valid (t : Tests) (face : List Nat) (i : Nat) (h : findRotation t face = some i) :
    ∀ x ∈ fanOf (face.drop i ++ face.take i), t.valid x.1 x.2.1 x.2.2 = true := by
  unfold findRotation at h
  have hm : i < face.length := by simpa using List.mem_of_find?_eq_some h
  have hall := List.find?_some h
  rw [List.all_eq_true] at hall
  have hlen : (face.drop i ++ face.take i).length = face.length := by
    rw [List.length_append, List.length_drop, List.length_take]; omega
  intro x hx
  unfold fanOf at hx
  rw [hlen] at hx
  obtain ⟨k, hk, rfl⟩ := List.mem_map.mp hx
  have hk' : k < face.length - 2 := by simpa using hk
  have := hall k hk
  simp only
  rw [getD_rotated face i 0 hm (by omega), getD_rotated face i (k + 1) hm (by omega),
    getD_rotated face i (k + 2) hm (by omega)]
  exact this

/-- C88: a rotation is found whenever the fan from some vertex has only valid triangles. -/
theorem rotation_found (t : Tests) (face : List Nat) (i : Nat) (hi : i < face.length)
    (h : ∀ x ∈ fanOf (face.drop i ++ face.take i), t.valid x.1 x.2.1 x.2.2 = true) :
    ∃ j, findRotation t face = some j := by
  unfold findRotation
  rw [← Option.isSome_iff_exists, List.find?_isSome]
  refine ⟨i, by simpa using hi, ?_⟩
  rw [List.all_eq_true]
  intro k hk
  have hk' : k < face.length - 2 := by simpa using hk
  have hlen : (face.drop i ++ face.take i).length = face.length := by
    rw [List.length_append, List.length_drop, List.length_take]; omega
  have := h ((face.drop i ++ face.take i).getD 0 0, (face.drop i ++ face.take i).getD (k + 1) 0,
    (face.drop i ++ face.take i).getD (k + 2) 0) (by
      unfold fanOf
      rw [hlen]
      exact List.mem_map.mpr ⟨k, hk, rfl⟩)
  simp only at this
  rw [getD_rotated face i 0 hi (by omega), getD_rotated face i (k + 1) hi (by omega),
    getD_rotated face i (k + 2) hi (by omega)] at this
  exact this

/-- C87: retopology ends. When it succeeds, the fragments and the triangles that cuts behind the seed leave out cover the
same region as the face; when no cut is behind its seed nothing is left out. -/
theorem retopology_account (t : Tests) (face : List Nat) (h : face ≠ []) :
    ∃ frags, (∀ fuel, face.length ≤ fuel → retopologize t fuel face [] = some frags) ∧
      (frags ≠ [] → (∀ p ∈ frags, 3 ≤ p.length) ∧
        SameOutline (frags ++ (retopoCuts t face.length face).flatMap lostTriangle) [face] ∧
        (∀ (K : Type) [Field K] (x y : Nat → K),
          area2 x y frags + area2 x y ((retopoCuts t face.length face).flatMap lostTriangle) = area2 x y [face]) ∧
        ((∀ c ∈ retopoCuts t face.length face, ¬ c.2.2 < c.2.1) → SameRegion frags [face])) := by
  obtain ⟨r, cuts, q1, q2, q3⟩ := retopo_spec t face.length face (Nat.le_refl _) h
  refine ⟨_, fun fuel hf => q1 fuel [] hf, ?_⟩
  intro hne
  cases r with
  | none => exact absurd rfl hne
  | some ps =>
    simp only [List.nil_append] at hne ⊢
    obtain ⟨a1, a2, a3, a4, a5⟩ := q3 ps rfl
    have hc := q2 face.length (Nat.le_refl _)
    rw [hc]
    have hv : ∀ v, v ∈ ps.flatten → v ∈ [face].flatten := by
      intro v hv
      obtain ⟨p, hp, hvp⟩ := List.mem_flatten.mp hv
      simpa using a3 p hp v hvp
    have hlostv : ∀ v, v ∈ ([face, cuts.flatMap (fun c => (lostTriangle c).flatten)] : List (List Nat)).flatten →
        v ∈ ([face, cuts.flatMap (fun c => (lostTriangle c).flatten)] : List (List Nat)).flatten := fun _ h => h
    refine ⟨a2, ?_, ?_, ?_⟩
    · intro u v
      have hφ : Anti (fun a b : Nat => ((if (a, b) = (u, v) then 1 else 0) - (if (a, b) = (v, u) then 1 else 0) : Int)) := by
        intro a b
        simp only [Prod.mk.injEq]
        by_cases h1 : a = u <;> by_cases h2 : b = v <;> by_cases h3 : a = v <;> by_cases h4 : b = u <;> simp_all
      have key : ∀ l : List (Nat × Nat), (l.map fun e =>
          ((if e = (u, v) then 1 else 0) - (if e = (v, u) then 1 else 0) : Int)).sum = l.count (u, v) - l.count (v, u) := by
        intro l
        induction l with
        | nil => simp
        | cons e l ih =>
          simp only [List.map_cons, List.sum_cons, ih, List.count_cons, beq_iff_eq]
          push_cast
          split <;> split <;> ring
      have := a5 Int _ hφ
      unfold net
      rw [← key, ← key]
      rw [← flows_append, ← flows_single, ← flows_edges, ← flows_edges] at this
      exact this
    · intro K _ x y
      have hφ : Anti (fun u v : Nat => x u * y v - x v * y u) := fun u v => by ring
      have := a5 K _ hφ
      rw [← flows_single, ← flows_edges, ← flows_edges, ← flows_edges] at this
      exact this
    · intro hah
      have hnil : cuts.flatMap lostTriangle = [] := by
        rw [List.flatMap_eq_nil_iff]
        intro c hcm
        unfold lostTriangle
        rw [if_neg (hah c hcm)]
      refine sameRegion_of_flows ?_ hv
      intro A _ φ hφ
      have := a5 A φ hφ
      rw [hnil] at this
      simpa [flows] using this

theorem sameRegion_refl (ps : List (List Nat)) : SameRegion ps ps :=
  ⟨fun _ _ => rfl, fun _ _ _ _ => rfl, fun _ h => h⟩

/-- The faces before the limit of edges. -/
theorem chooseFaces_spec (w : Weights D) (hw : WeightsOk w) (pick : List Nat → Nat) (hpick : ∀ l, l ≠ [] → pick l ∈ l)
    (t : Tests) (level : TjuncLevel) (face : List Nat) (h3 : 3 ≤ face.length) :
    ∃ (N : Nat) (faces : List (List Nat)),
      (∀ fuel, N ≤ fuel → chooseFaces w pick t level fuel face = some (.ok faces)) ∧
      faces ≠ [] ∧ (∀ p ∈ faces, 3 ≤ p.length) ∧
      ((level = .retopologize → ∀ c ∈ retopoCuts t face.length face, ¬ c.2.2 < c.2.1) →
        (∀ (A : Type) [AddCommGroup A] (φ : Nat → Nat → A), Anti φ → flows φ faces = flow φ face) ∧
        triangles faces = face.length - 2) ∧ (∀ p ∈ faces, ∀ v ∈ p, v ∈ face) := by
  have hself : ([face] : List (List Nat)) ≠ [] ∧ (∀ p ∈ [face], 3 ≤ p.length) ∧
      ((level = .retopologize → ∀ c ∈ retopoCuts t face.length face, ¬ c.2.2 < c.2.1) →
        (∀ (A : Type) [AddCommGroup A] (φ : Nat → Nat → A), Anti φ → flows φ [face] = flow φ face) ∧
        triangles [face] = face.length - 2) ∧ (∀ p ∈ [face], ∀ v ∈ p, v ∈ face) :=
    ⟨by simp, by simpa using h3, fun _ => ⟨fun A _ φ _ => flows_single φ face, by simp [triangles]⟩, by simp⟩
  by_cases hm : level = .mwt
  · subst hm
    obtain ⟨N, tris, t', q1, q2, q3, -⟩ := minWeightTris_spec w hw face.length (by omega)
    have hs : ∀ x ∈ tris, Sorted face.length x := by
      intro x hx
      have := below_tris q2 x (q3.mem_iff.mp hx)
      exact ⟨this.2.1, this.2.2.1, by omega⟩
    obtain ⟨r, r1, r2, r3, r4, r5⟩ := compress_spec pick hpick face tris.length tris [] (Nat.le_refl _) hs
    have hlen : tris.length = face.length - 2 := by
      have := q1 N (Nat.le_refl _)
      unfold minWeightTris at this
      rw [Option.map_eq_some_iff] at this
      obtain ⟨ts, -, hts⟩ := this
      split at hts
      · rename_i h
        injection hts with hts
        rw [← hts, h]
      · cases hts
    have hrne : r ≠ [] := by
      rintro rfl
      simp [triangles] at r4
      omega
    refine ⟨max N tris.length, r, ?_, hrne, r2, fun _ => ⟨?_, by rw [r4, hlen]⟩, r3⟩
    · intro fuel hf
      unfold chooseFaces mwtFace
      simp only [TjuncLevel.rank, Nat.le_refl, ge_iff_le, if_true]
      rw [q1 fuel (by omega)]
      simp only
      rw [r1 fuel (by omega)]
      simp [hrne]
    · intro A _ φ hφ
      rw [r5 A φ hφ]
      have e := below_flow _ (anti_comp hφ fun v => face.getD v 0) q2
      rw [Nat.zero_add, Nat.sub_zero, ← flow_range' A _ face.length (by omega), ← flow_map, map_range_getD] at e
      rw [← e, ← (q3.map _).sum_eq]
      congr 1
  · have hrank : ¬ level.rank ≥ TjuncLevel.mwt.rank := by
      cases level <;> simp_all [TjuncLevel.rank]
    by_cases hn : level = .none
    · subst hn
      refine ⟨0, [face], ?_, hself⟩
      intro fuel _
      simp [chooseFaces, TjuncLevel.rank]
    · have hrot : level.rank ≥ TjuncLevel.rotate.rank := by
        cases level <;> simp_all [TjuncLevel.rank]
      rcases hf : findRotation t face with _ | i
      · by_cases hl : level = .retopologize
        · subst hl
          obtain ⟨r, cuts, q1, q2, q3⟩ := retopo_spec t face.length face (Nat.le_refl _)
            (by rintro rfl; simp at h3)
          cases r with
          | none =>
            refine ⟨face.length, [face], ?_, hself⟩
            intro fuel hfu
            simp [chooseFaces, TjuncLevel.rank, hf, q1 fuel [] hfu]
          | some ps =>
            by_cases hps : ps.length > 1
            · obtain ⟨a1, a2, a3, a4, a5⟩ := q3 ps rfl
              refine ⟨face.length, ps, ?_, a1, a2, ?_, a3⟩
              · intro fuel hfu
                simp [chooseFaces, TjuncLevel.rank, hf, q1 fuel [] hfu, hps, a1]
              · intro hah
                have hnil : cuts.flatMap lostTriangle = [] := by
                  rw [List.flatMap_eq_nil_iff]
                  intro c hcm
                  unfold lostTriangle
                  rw [if_neg (hah rfl c (by rw [q2 face.length (Nat.le_refl _)]; exact hcm))]
                rw [hnil] at a4 a5
                refine ⟨?_, by simpa using a4⟩
                intro A _ φ hφ
                simpa [flows] using a5 A φ hφ
            · refine ⟨face.length, [face], ?_, hself⟩
              intro fuel hfu
              simp [chooseFaces, TjuncLevel.rank, hf, q1 fuel [] hfu, hps]
        · obtain rfl : level = .rotate := by
            cases level <;> simp_all
          refine ⟨0, [face], ?_, hself⟩
          intro fuel _
          simp [chooseFaces, TjuncLevel.rank, hf]
      · by_cases hi : i = 0
        · refine ⟨0, [face], ?_, hself⟩
          intro fuel _
          unfold chooseFaces
          simp only
          rw [if_neg hrank]
          simp only
          rw [if_pos ⟨rfl, hrot⟩, hf]
          simp [hi]
        · have hlen : (face.drop i ++ face.take i).length = face.length := by
            rw [List.length_append, List.length_drop, List.length_take]; omega
          refine ⟨0, [face.drop i ++ face.take i], ?_, by simp, ?_, ?_, ?_⟩
          · intro fuel _
            unfold chooseFaces
            simp only
            rw [if_neg hrank]
            simp only
            rw [if_pos ⟨rfl, hrot⟩, hf]
            simp [hi]
          · intro p hp
            rw [List.mem_singleton.mp hp, hlen]; exact h3
          · intro _
            refine ⟨?_, by simp only [triangles, List.map_cons, List.map_nil, List.sum_cons, List.sum_nil, hlen, Nat.add_zero]⟩
            intro A _ φ _
            rw [flows_single, flow_rotate, List.take_append_drop]
          · intro p hp v hv
            rw [List.mem_singleton.mp hp] at hv
            rcases List.mem_append.mp hv with hv | hv
            · exact List.mem_of_mem_drop hv
            · exact List.mem_of_mem_take hv

/-- C87: whatever the level, the fragments of a face are computed without a failed assertion, each has at least three
vertices, and no vertex is invented. Unless a cut of retopology is behind its seed, the fragments cover the same region as
the face with the vertices on its edges, with as few triangles as possible. -/
theorem fragments_region_partial (w : Weights D) (hw : WeightsOk w) (pick : List Nat → Nat)
    (hpick : ∀ l, l ≠ [] → pick l ∈ l) (t : Tests) (level : TjuncLevel) (hlevel : level ≠ .none) (maxedges : Nat)
    (hm : maxedges = 0 ∨ 3 ≤ maxedges) (original superface : List Nat) (h4 : 4 ≤ superface.length) :
    ∃ (N : Nat) (frags : List (List Nat)),
      (∀ fuel, N ≤ fuel → fixFaceEdges w pick t level maxedges fuel original superface = some (.ok frags)) ∧
      frags ≠ [] ∧ (∀ p ∈ frags, 3 ≤ p.length) ∧ (∀ p ∈ frags, ∀ v ∈ p, v ∈ superface) ∧
      ((level = .retopologize → ∀ c ∈ retopoCuts t superface.length superface, ¬ c.2.2 < c.2.1) →
        SameRegion frags [superface] ∧ triangles frags = superface.length - 2) := by
  obtain ⟨N, faces, q1, q2, q3, q4, q5⟩ := chooseFaces_spec w hw pick hpick t level superface (by omega)
  obtain ⟨face, rest, rfl⟩ : ∃ face rest, faces = face :: rest := by
    cases faces with
    | nil => exact absurd rfl q2
    | cons a l => exact ⟨a, l, rfl⟩
  have main : ∃ (M : Nat) (frags : List (List Nat)),
      (∀ fuel, M ≤ fuel → limitFaces maxedges fuel (face :: rest) = some (.ok frags)) ∧ frags ≠ [] ∧
      (∀ p ∈ frags, 3 ≤ p.length) ∧ (∀ p ∈ frags, ∀ v ∈ p, v ∈ superface) ∧
      triangles frags = triangles (face :: rest) ∧
      ∀ (A : Type) [AddCommGroup A] (φ : Nat → Nat → A), Anti φ → flows φ frags = flows φ (face :: rest) := by
    rcases hm with rfl | hm
    · refine ⟨0, face :: rest, ?_, q2, q3, q5, rfl, fun A _ φ _ => rfl⟩
      intro fuel _
      simp [limitFaces]
    · obtain ⟨pieces, last, p1, p2, p3, p4, p5, p6, p7, -⟩ := limit_first maxedges hm face rest (q3 face List.mem_cons_self)
      refine ⟨face.length + 1, rest ++ pieces ++ [last], fun fuel hf => p1 fuel (by omega), by simp, ?_, ?_, ?_, ?_⟩
      · intro p hp
        rcases List.mem_append.mp hp with hp | hp
        · rcases List.mem_append.mp hp with hp | hp
          · exact q3 p (List.mem_cons_of_mem _ hp)
          · have := p4 p hp; omega
        · rw [List.mem_singleton.mp hp]; exact p2
      · intro p hp v hv
        rw [List.append_assoc] at hp
        rcases List.mem_append.mp hp with hp | hp
        · exact q5 p (List.mem_cons_of_mem _ hp) v hv
        · exact q5 face List.mem_cons_self v (p6 v (List.mem_flatten.mpr ⟨p, hp, hv⟩))
      · have hpc : ∀ ps : List (List Nat), (∀ p ∈ ps, p.length = maxedges) →
            (ps.map fun p => p.length - 2).sum = ps.length * (maxedges - 2) := by
          intro ps
          induction ps with
          | nil => simp
          | cons p ps ih =>
            intro h
            simp only [List.map_cons, List.sum_cons, List.length_cons]
            rw [ih fun q hq => h q (List.mem_cons_of_mem _ hq), h p List.mem_cons_self, Nat.add_mul]
            omega
        simp only [triangles, List.map_append, List.sum_append, List.map_cons, List.sum_cons, List.map_nil, List.sum_nil,
          hpc pieces p4]
        omega
      · intro A _ φ hφ
        have := cutAlong_flows p5 φ hφ
        rw [List.append_assoc, flows_append, this, flows_cons, add_comm]
  obtain ⟨M, frags, m1, m2, m3, m4, m5, m6⟩ := main
  refine ⟨max N M, frags, ?_, m2, m3, m4, ?_⟩
  · intro fuel hf
    unfold fixFaceEdges
    rw [if_neg hlevel, if_neg (by omega), if_neg (by omega), q1 fuel (by omega)]
    simp only
    rw [m1 fuel (by omega)]
    simp only
    rw [if_pos]
    rw [List.all_eq_true]
    intro p hp
    simpa using m3 p hp
  · intro hah
    obtain ⟨b1, b2⟩ := q4 hah
    refine ⟨sameRegion_of_flows ?_ ?_, by rw [m5, b2]⟩
    · intro A _ φ hφ
      rw [m6 A φ hφ, b1 A φ hφ, flows_single]
    · intro v hv
      obtain ⟨p, hp, hvp⟩ := List.mem_flatten.mp hv
      simpa using m4 p hp v hvp

/-! ## The optimum -/

/-- C88: of all triangulations without an invalid triangle, one with the smallest sum of perimeters is
chosen. The weights: the weight of a valid triangle is its perimeter and the weights of the parts below its sides, as long
as these are below `big`; in all other cases it is at least `big`. -/
theorem mwt_optimal {K : Type} [Field K] [LinearOrder K] [IsStrictOrderedRing K] (w : Weights K) (hw : WeightsOk w)
    (n : Nat) (hn : 3 ≤ n) (valid : Nat → Nat → Nat → Prop) (per : Tri → K) (big : K)
    (hz : w.zero = 0) (hlt : ∀ a b, w.lt a b = true ↔ a < b) (hper : ∀ x, 0 ≤ per x)
    (hsum : ∀ i k j a b, valid i k j → a < big → b < big → per (i, k, j) + a + b < big →
      w.weight i k j a b = per (i, k, j) + a + b)
    (hsat : ∀ i k j a b, w.weight i k j a b < big → valid i k j ∧ a < big ∧ b < big ∧ per (i, k, j) + a + b < big)
    (best : Triang) (hb : Below 0 (n - 1) best) (hv : ∀ x ∈ best.tris 0 (n - 1), valid x.1 x.2.1 x.2.2)
    (hsmall : total per (best.tris 0 (n - 1)) < big) :
    ∃ (N : Nat) (tris : List Tri) (t : Triang), (∀ fuel, N ≤ fuel → minWeightTris w fuel n = some (.ok tris)) ∧
      Below 0 (n - 1) t ∧ tris.Perm (t.tris 0 (n - 1)) ∧ (∀ x ∈ tris, valid x.1 x.2.1 x.2.2) ∧
      total per tris ≤ total per (best.tris 0 (n - 1)) := by
  -- every entry is at most the total of any good triangulation
  have hbk : ∀ (T : Nat → Nat → K) (i j : Nat) (ks : List Nat) (b : K × Option Nat),
      (bestK w T i j ks b).1 ≤ b.1 ∧ ∀ k ∈ ks, (bestK w T i j ks b).1 ≤ w.weight i k j (T i k) (T k j) := by
    intro T i j ks
    induction ks with
    | nil => intro b; exact ⟨le_refl _, by simp⟩
    | cons k ks ih =>
      intro b
      unfold bestK
      simp only
      by_cases h : w.lt (w.weight i k j (T i k) (T k j)) b.1 = true
      · rw [if_pos h]
        obtain ⟨h1, h2⟩ := ih (w.weight i k j (T i k) (T k j), some k)
        refine ⟨le_trans h1 (le_of_lt ((hlt _ _).mp h)), ?_⟩
        intro k' hk'
        rcases List.mem_cons.mp hk' with rfl | hk'
        · exact h1
        · exact h2 k' hk'
      · rw [if_neg h]
        obtain ⟨h1, h2⟩ := ih b
        refine ⟨h1, ?_⟩
        intro k' hk'
        rcases List.mem_cons.mp hk' with rfl | hk'
        · refine le_trans h1 ?_
          rw [hlt] at h
          exact not_lt.mp h
        · exact h2 k' hk'
  have htot0 : ∀ ts : List Tri, 0 ≤ total per ts := by
    intro ts
    unfold total
    induction ts with
    | nil => simp
    | cons x ts ih =>
      rw [List.map_cons, List.sum_cons]
      exact add_nonneg (hper x) ih
  have hle : ∀ d i j, i < j → j < n → j - i < d → ∀ u : Triang, Below i j u → (∀ x ∈ u.tris i j, valid x.1 x.2.1 x.2.2) →
      total per (u.tris i j) < big → (fillTables w n d).1 i j ≤ total per (u.tris i j) := by
    intro d
    induction d with
    | zero => intro i j _ _ h; omega
    | succ d ih =>
      intro i j hij hjn hd u hu huv hus
      have hT : ∀ a b, b - a < d → (fillTables w n (d + 1)).1 a b = (fillTables w n d).1 a b := by
        intro a b h
        rw [fillTables]
        simp only
        rw [if_neg]
        rintro ⟨h1, h2, h3⟩
        omega
      by_cases hlt' : j - i < d
      · rw [hT i j hlt']
        exact ih i j hij hjn hlt' u hu huv hus
      · have hjd : j = i + d := by omega
        cases u with
        | edge =>
          have : j = i + 1 := hu
          rw [(fillTables_outside w n (d + 1) i j (Or.inl (by omega))).1, hz]
          exact htot0 _
        | tri k l r =>
          obtain ⟨b1, b2, b3, b4⟩ := hu
          have htot : total per ((Triang.tri k l r).tris i j) = per (i, k, j) + total per (l.tris i k) + total per (r.tris k j) := by
            simp [total, Triang.tris, add_assoc]
          rw [htot] at hus ⊢
          have s1 := htot0 (l.tris i k)
          have s2 := htot0 (r.tris k j)
          have s3 := hper (i, k, j)
          have c1 := ih i k b1 (by omega) (by omega) l b3
            (fun x hx => huv x (List.mem_cons_of_mem _ (List.mem_append_left _ hx))) (by linarith)
          have c2 := ih k j b2 hjn (by omega) r b4
            (fun x hx => huv x (List.mem_cons_of_mem _ (List.mem_append_right _ hx))) (by linarith)
          have e1 : (fillTables w n (d + 1)).1 i j =
              (bestK w (fillTables w n d).1 i j (List.range' (i + 1) (j - i - 1)) (w.max, none)).1 := by
            rw [fillTables]
            simp only
            rw [if_pos ⟨hjd, hjn, by omega⟩]
          rw [e1]
          refine le_trans ((hbk _ i j _ _).2 k ?_) ?_
          · rw [List.mem_range'_1]; omega
          · rw [hsum i k j _ _ (huv (i, k, j) List.mem_cons_self) (by linarith) (by linarith) (by linarith)]
            linarith
  obtain ⟨N, tris, t, q1, q2, q3, q4⟩ := minWeightTris_spec w hw n (by omega)
  have hT := hle n 0 (n - 1) (by omega) (by omega) (by omega) best hb hv hsmall
  rw [q4] at hT
  have hgood : ∀ (u : Triang) (i j : Nat), cost w i j u < big →
      (∀ x ∈ u.tris i j, valid x.1 x.2.1 x.2.2) ∧ total per (u.tris i j) = cost w i j u := by
    intro u
    induction u with
    | edge =>
      intro i j _
      refine ⟨fun x hx => by simp [Triang.tris] at hx, ?_⟩
      simp [total, Triang.tris, cost, hz]
    | tri k l r ihl ihr =>
      intro i j h
      have hc : cost w i j (.tri k l r) = w.weight i k j (cost w i k l) (cost w k j r) := rfl
      rw [hc] at h ⊢
      obtain ⟨c1, c2, c3, c4⟩ := hsat _ _ _ _ _ h
      obtain ⟨l1, l2⟩ := ihl i k c2
      obtain ⟨r1, r2⟩ := ihr k j c3
      refine ⟨?_, ?_⟩
      · intro x hx
        rcases List.mem_cons.mp hx with rfl | hx
        · exact c1
        · rcases List.mem_append.mp hx with hx | hx
          · exact l1 x hx
          · exact r1 x hx
      · rw [hsum _ _ _ _ _ c1 c2 c3 c4, ← l2, ← r2]
        simp [total, Triang.tris, add_assoc]
  obtain ⟨g1, g2⟩ := hgood t 0 (n - 1) (lt_of_le_of_lt hT hsmall)
  refine ⟨N, tris, t, q1, q2, q3, fun x hx => g1 x (q3.mem_iff.mp hx), ?_⟩
  unfold total at g2 ⊢
  rw [(q3.map per).sum_eq, g2]
  exact hT

/-! ## Examples -/

/-- Weights for examples: `valid` triangles weigh the spans of their sides, invalid ones a million. -/
def exWeights (valid : Nat → Nat → Nat → Bool) : Weights Nat :=
  ⟨0, 1000001, fun a b => decide (a < b), fun i k j a b => if valid i k j then min 1000000 (2 * (j - i) + a + b) else 1000000⟩

theorem exWeights_ok (valid : Nat → Nat → Nat → Bool) : WeightsOk (exWeights valid) := by
  constructor
  · intro a b h1 h2
    simp only [exWeights, decide_eq_true_eq] at *
    omega
  · intro i j v _
    simp only [exWeights, decide_eq_true_eq]
    split <;> omega

/-- Weights in a field for the optimum. -/
def exWeightsQ (valid : Nat → Nat → Nat → Bool) : Weights ℚ :=
  ⟨0, 101, fun a b => decide (a < b), fun i k j a b =>
    if valid i k j ∧ a < 100 ∧ b < 100 ∧ (2 * (j - i : ℕ) : ℚ) + a + b < 100 then (2 * (j - i : ℕ) : ℚ) + a + b else 100⟩

-- the hypotheses of `mwt_optimal` hold for a pentagon whose triangle 0 1 2 is invalid
example : ∃ (N : Nat) (tris : List Tri) (t : Triang),
    (∀ fuel, N ≤ fuel → minWeightTris (exWeightsQ fun i k j => !(i == 0 && k == 1 && j == 2)) fuel 5 = some (.ok tris)) ∧
      Below 0 4 t ∧ tris.Perm (t.tris 0 4) ∧ (∀ x ∈ tris, ¬ (x.1 = 0 ∧ x.2.1 = 1 ∧ x.2.2 = 2)) ∧
      total (fun x => ((2 * (x.2.2 - x.1) : ℕ) : ℚ)) tris ≤ total (fun x => ((2 * (x.2.2 - x.1) : ℕ) : ℚ))
        ((Triang.tri 1 .edge (.tri 2 .edge (.tri 3 .edge .edge))).tris 0 4) := by
  refine mwt_optimal _ ?_ 5 (by omega) (fun a b c => ¬ (a = 0 ∧ b = 1 ∧ c = 2)) _ 100 rfl ?_ ?_ ?_ ?_ _
    ?_ ?_ ?_
  · constructor
    · intro a b h1 h2
      simp only [exWeightsQ, decide_eq_true_eq] at *
      linarith
    · intro i j v _
      simp only [exWeightsQ, decide_eq_true_eq]
      split
      · rename_i h; linarith [h.2.2.2]
      · norm_num
  · intro a b; simp [exWeightsQ]
  · intro x; positivity
  · intro i k j a b h1 h2 h3 h4
    simp only [exWeightsQ]
    push_cast at h4 ⊢
    rw [if_pos]
    refine ⟨?_, h2, h3, h4⟩
    simp only [Bool.not_eq_true', Bool.and_eq_false_iff, beq_eq_false_iff_ne]
    omega
  · intro i k j a b h
    simp only [exWeightsQ] at h
    split at h
    · rename_i hh
      obtain ⟨h1, h2, h3, h4⟩ := hh
      refine ⟨by simp only [Bool.not_eq_true', Bool.and_eq_false_iff, beq_eq_false_iff_ne] at h1; omega, h2, h3, ?_⟩
      push_cast at h4 ⊢
      exact h4
    · exact absurd h (lt_irrefl _)
  · simp [Below]
  · simp [Triang.tris]
  · simp [total, Triang.tris]
    norm_num

def exPick (l : List Nat) : Nat := l.headD 0

theorem exPick_mem : ∀ l : List Nat, l ≠ [] → exPick l ∈ l := by
  intro l h
  cases l with
  | nil => exact absurd rfl h
  | cons a l => simp [exPick]

/-- The positions of a face that retopology makes a hole into: a quadrangle with two more vertices on its bottom edge. -/
def holePos (i : Nat) : Int × Int := [(1, 6500), (0, 6500), (0, 0), (1, 0), (4000, 0), (6000, 0)].getD i (0, 0)

def holeCross (a b c : Nat) : Int :=
  ((holePos b).1 - (holePos a).1) * ((holePos c).2 - (holePos a).2) - ((holePos b).2 - (holePos a).2) * ((holePos c).1 - (holePos a).1)

def holeDot (a b c : Nat) : Int :=
  ((holePos b).1 - (holePos a).1) * ((holePos c).1 - (holePos a).1) + ((holePos b).2 - (holePos a).2) * ((holePos c).2 - (holePos a).2)

/-- An angle below 0.01 degrees: its tangent is below 0.0001745. -/
def holeSharp (a b c : Nat) : Bool := decide (0 < holeDot a b c ∧ |holeCross a b c| * 10000000 < 1745 * holeDot a b c)

/-- `TriangleIsValid` (qbsp/tjunc.cc:288-297) and `PointOnEdge` without its tolerance for these positions. -/
def holeTests : Tests :=
  ⟨fun a b c => !(holeSharp a b c || holeSharp b c a || holeSharp c a b),
    fun a b p => decide (holeCross a b p = 0 ∧ 0 < holeDot a b p ∧ 0 < holeDot b a p)⟩

/-- C87 fails: retopology leaves out the triangle of the vertices 4, 0 and 1 of this convex face. -/
theorem retopology_hole :
    (∀ fuel, 6 ≤ fuel → fixFaceEdges (exWeights fun _ _ _ => true) exPick holeTests .retopologize 0 fuel [1, 2, 5, 0] [0, 1, 2, 3, 4, 5] =
      some (.ok [[4, 5, 0], [3, 4, 1, 2]])) ∧
    ¬ SameRegion [[4, 5, 0], [3, 4, 1, 2]] [[0, 1, 2, 3, 4, 5]] ∧
    area2 (fun i => ((holePos i).1 : ℚ)) (fun i => ((holePos i).2 : ℚ)) [[0, 1, 2, 3, 4, 5]] =
      area2 (fun i => ((holePos i).1 : ℚ)) (fun i => ((holePos i).2 : ℚ)) [[4, 5, 0], [3, 4, 1, 2]] + 6500 := by
  refine ⟨?_, ?_, ?_⟩
  · intro fuel hf
    have h1 : findRotation holeTests [0, 1, 2, 3, 4, 5] = none := by decide +kernel
    obtain ⟨r, -, q1, -, -⟩ := retopo_spec holeTests 6 [0, 1, 2, 3, 4, 5] (by decide) (by simp)
    have h6 : retopologize holeTests 6 [0, 1, 2, 3, 4, 5] [] = some [[4, 5, 0], [3, 4, 1, 2]] := by decide +kernel
    have h2 : retopologize holeTests fuel [0, 1, 2, 3, 4, 5] [] = some [[4, 5, 0], [3, 4, 1, 2]] := by
      rw [q1 fuel [] hf, ← q1 6 [] (Nat.le_refl _), h6]
    simp [fixFaceEdges, chooseFaces, TjuncLevel.rank, h1, h2, limitFaces]
  · intro h
    have := h.outline 0 1
    revert this
    decide +kernel
  · norm_num [area2, edgesOf, holePos]

-- the triangles of a face whose vertices 0 to 4 are on one edge, and the fan that holds them all
example : minWeightTris (exWeights fun i _ j => decide (4 < j ∨ 4 < i)) 50 7 =
      some (.ok [(0, 1, 6), (1, 2, 6), (2, 3, 6), (3, 4, 6), (4, 5, 6)]) ∧
    bestFan [(0, 1, 6), (1, 2, 6), (2, 3, 6), (3, 4, 6), (4, 5, 6)] 7 = [0, 1, 2, 3, 4] := by
  decide +kernel

example := fragments_region_partial (exWeights fun i _ j => decide (4 < j ∨ 4 < i)) (exWeights_ok _) exPick exPick_mem holeTests
  .mwt (by decide) 0 (Or.inl rfl) [] [0, 1, 2, 3, 4, 5, 6] (by decide)

example := mwt_face_region (exWeights fun i _ j => decide (4 < j ∨ 4 < i)) (exWeights_ok _) exPick exPick_mem
  [0, 1, 2, 3, 4, 5, 6] (by decide)

-- no cut of this retopology is behind its seed
example : let t : Tests := ⟨fun a b c => !((a, b, c) ∈ [(0, 1, 2), (1, 2, 3), (5, 0, 1)]), fun a b p => a == 2 && b == 6 && p == 0⟩
    retopologize t 7 [0, 1, 2, 3, 4, 5, 6] [] = some [[2, 3, 4, 5], [1, 2, 5, 6, 0]] ∧
      ∀ c ∈ retopoCuts t 7 [0, 1, 2, 3, 4, 5, 6], ¬ c.2.2 < c.2.1 := by
  decide +kernel

example : findRotation ⟨fun a b c => !((a, b, c) = (0, 1, 2)), fun _ _ _ => false⟩ [0, 1, 2, 3] = some 1 := by decide +kernel

end Verif.Faces
