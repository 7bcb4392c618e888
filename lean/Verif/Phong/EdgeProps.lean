import Verif.Phong.NormalLemmas

/-!
Property C176: the faces across an edge. Property C177: the normals do not depend on how the work is spread over threads.
-/

namespace Verif.Phong

open Verif.Geom

/-- The face has an edge from one vertex to another. -/
def HasEdge (f : Face ℝ) (v0 v1 : Nat) : Prop :=
  v0 ≠ v1 ∧ ∃ k, f.verts[k]? = some v0 ∧ f.verts[(k + 1) % f.verts.length]? = some v1

theorem hasEdge_iff (f : Face ℝ) (v0 v1 : Nat) :
    HasEdge f v0 v1 ↔ v0 ≠ v1 ∧ ∃ c ∈ corners f.verts, c.2.1 = v0 ∧ c.2.2 = v1 := by
  unfold HasEdge
  refine and_congr_right fun _ => ?_
  unfold corners
  simp only [List.mem_map, List.mem_range]
  constructor
  · rintro ⟨k, h0, h1⟩
    exact ⟨_, ⟨k, (List.getElem?_eq_some_iff.1 h0).1, rfl⟩, by simp [h0], by simp [h1]⟩
  · rintro ⟨c, ⟨k, hk, rfl⟩, h0, h1⟩
    have hm : (k + 1) % f.verts.length < f.verts.length := Nat.mod_lt _ (by omega)
    refine ⟨k, ?_, ?_⟩
    · rw [List.getElem?_eq_getElem hk, ← h0]
      simp [List.getElem?_eq_getElem hk]
    · rw [List.getElem?_eq_getElem hm, ← h1]
      simp [List.getElem?_eq_getElem hm]

/-- One face: it is listed if it has the edge, and only once. -/
theorem edge_face (cs : List (Nat × Nat × Nat)) (v0 v1 i : Nat) (acc : List Nat) :
    ∃ b : Bool, cs.foldl (fun acc c =>
      if c.2.1 = c.2.2 then acc
      else if (c.2.1, c.2.2) ≠ (v0, v1) then acc
      else if i ∈ acc then acc
      else acc ++ [i]) acc = (if b then acc ++ [i] else acc) ∧
      (b = true ↔ i ∉ acc ∧ v0 ≠ v1 ∧ ∃ c ∈ cs, c.2.1 = v0 ∧ c.2.2 = v1) := by
  induction cs generalizing acc with
  | nil => exact ⟨false, rfl, by simp⟩
  | cons c cs ih =>
    rw [List.foldl_cons]
    by_cases h1 : c.2.1 = c.2.2
    · rw [if_pos h1]
      obtain ⟨b, hb, hi⟩ := ih acc
      refine ⟨b, hb, hi.trans (and_congr_right fun _ => and_congr_right fun hne => ?_)⟩
      simp only [List.exists_mem_cons_iff]
      constructor
      · exact Or.inr
      · rintro (⟨h, h'⟩ | h)
        · exact absurd (h.symm.trans (h1.trans h')) hne
        · exact h
    · rw [if_neg h1]
      by_cases h2 : (c.2.1, c.2.2) = (v0, v1)
      · rw [if_neg (not_not.2 h2)]
        have e1 : c.2.1 = v0 := congrArg Prod.fst h2
        have e2 : c.2.2 = v1 := congrArg Prod.snd h2
        have hne : v0 ≠ v1 := fun h => h1 (e1.trans (h.trans e2.symm))
        by_cases h3 : i ∈ acc
        · rw [if_pos h3]
          obtain ⟨b, hb, hi⟩ := ih acc
          refine ⟨b, hb, hi.trans ?_⟩
          simp [h3]
        · rw [if_neg h3]
          obtain ⟨b, hb, hi⟩ := ih (acc ++ [i])
          have : b = false := by
            cases b
            · rfl
            · exact absurd (by simp) (hi.1 rfl).1
          refine ⟨true, by rw [hb, this]; simp, ?_⟩
          simp only [true_iff]
          exact ⟨h3, hne, c, List.mem_cons_self, e1, e2⟩
      · rw [if_pos h2]
        obtain ⟨b, hb, hi⟩ := ih acc
        refine ⟨b, hb, hi.trans (and_congr_right fun _ => and_congr_right fun _ => ?_)⟩
        simp only [List.exists_mem_cons_iff]
        constructor
        · exact Or.inr
        · rintro (⟨h, h'⟩ | h)
          · exact absurd (Prod.ext h h') h2
          · exact h

/-- C176: for an edge from one vertex to another, the faces listed are those that have it, in the order of their numbers,
each once. -/
theorem edge_faces (faces : List (Face ℝ)) (v0 v1 : Nat) :
    (edgeFaces faces v0 v1).Pairwise (· < ·) ∧
      ∀ j, j ∈ edgeFaces faces v0 v1 ↔ ∃ f, faces[j]? = some f ∧ HasEdge f v0 v1 := by
  have key : ∀ (l : List (Face ℝ)) (s : Nat) (acc : List Nat), acc.Pairwise (· < ·) → (∀ x ∈ acc, x < s) →
      ((l.zipIdx s).foldl (fun acc fi =>
        (corners fi.1.verts).foldl (fun acc c =>
          if c.2.1 = c.2.2 then acc
          else if (c.2.1, c.2.2) ≠ (v0, v1) then acc
          else if fi.2 ∈ acc then acc
          else acc ++ [fi.2]) acc) acc).Pairwise (· < ·) ∧
      ∀ j, j ∈ (l.zipIdx s).foldl (fun acc fi =>
        (corners fi.1.verts).foldl (fun acc c =>
          if c.2.1 = c.2.2 then acc
          else if (c.2.1, c.2.2) ≠ (v0, v1) then acc
          else if fi.2 ∈ acc then acc
          else acc ++ [fi.2]) acc) acc ↔
        j ∈ acc ∨ ∃ f k, l[k]? = some f ∧ j = s + k ∧ HasEdge f v0 v1 := by
    intro l
    induction l with
    | nil => intro s acc h _; exact ⟨h, by simp⟩
    | cons f l ih =>
      intro s acc hp hs
      rw [List.zipIdx_cons, List.foldl_cons]
      obtain ⟨b, hb, hi⟩ := edge_face (corners f.verts) v0 v1 s acc
      simp only at hb ⊢
      rw [hb]
      have hns : s ∉ acc := fun h => lt_irrefl _ (hs s h)
      rw [← hasEdge_iff] at hi
      have hp' : (if b = true then acc ++ [s] else acc).Pairwise (· < ·) := by
        cases b
        · simpa using hp
        · simp only [if_true]
          exact List.pairwise_append.2 ⟨hp, by simp, fun x hx y hy => by
            rw [List.mem_singleton.1 hy]; exact hs x hx⟩
      have hs' : ∀ x ∈ (if b = true then acc ++ [s] else acc), x < s + 1 := by
        intro x hx
        cases b
        · exact Nat.lt_succ_of_lt (hs x (by simpa using hx))
        · simp only [if_true, List.mem_append, List.mem_singleton] at hx
          rcases hx with hx | rfl
          · exact Nat.lt_succ_of_lt (hs x hx)
          · exact Nat.lt_succ_self _
      obtain ⟨h1, h2⟩ := ih (s + 1) _ hp' hs'
      refine ⟨h1, fun j => (h2 j).trans ?_⟩
      constructor
      · rintro (hj | ⟨g, k, hk, rfl, he⟩)
        · cases hb' : b
          · rw [hb'] at hj; exact Or.inl (by simpa using hj)
          · rw [hb'] at hj
            simp only [if_true, List.mem_append, List.mem_singleton] at hj
            rcases hj with hj | rfl
            · exact Or.inl hj
            · exact Or.inr ⟨f, 0, rfl, rfl, (hi.1 hb').2⟩
        · exact Or.inr ⟨g, k + 1, by simpa using hk, by omega, he⟩
      · rintro (hj | ⟨g, k, hk, rfl, he⟩)
        · refine Or.inl ?_
          cases b
          · simpa using hj
          · simp [hj]
        · cases k with
          | zero =>
            rw [List.getElem?_cons_zero, Option.some_inj] at hk
            subst hk
            refine Or.inl ?_
            rw [hi.2 ⟨hns, he⟩]
            simp
          | succ k => exact Or.inr ⟨g, k, by simpa using hk, by omega, he⟩
  obtain ⟨h1, h2⟩ := key faces 0 [] List.Pairwise.nil (by simp)
  refine ⟨h1, fun j => (h2 j).trans ?_⟩
  simp only [List.not_mem_nil, false_or, zero_add]
  constructor
  · rintro ⟨f, k, hk, rfl, he⟩; exact ⟨f, hk, he⟩
  · rintro ⟨f, hf, he⟩; exact ⟨f, j, hf, rfl, he⟩

/-- A face that light may continue on across the edge from `v0` to `v1` of `f`, which has the number `i`. -/
def Across (b : Bsp ℝ) (tex : Nat → Tex ℝ) (i : Nat) (f : Face ℝ) (v0 v1 : Nat) (j : Nat) : Prop :=
  j ≠ i ∧ ∃ g, b.faces[j]? = some g ∧ HasEdge g v1 v0 ∧
    (j ∈ smoothFaces realOps b tex i f ∨ (g.planenum = f.planenum ∧ g.side = f.side))

/-- C176: across an edge of a face lies the first other face that has the edge the other way round and is smoothed with
the face or on its plane, and nothing only if there is no such face. -/
theorem edge_smoothed (b : Bsp ℝ) (tex : Nat → Tex ℝ) (i : Nat) (f : Face ℝ) (e v0 v1 : Nat)
    (h0 : f.verts[e]? = some v0) (h1 : f.verts[(e + 1) % f.verts.length]? = some v1) :
    (∀ j, edgeSmoothed realOps b tex i f e = some j →
      Across b tex i f v0 v1 j ∧ ∀ k < j, ¬Across b tex i f v0 v1 k) ∧
    (edgeSmoothed realOps b tex i f e = none → ∀ k, ¬Across b tex i f v0 v1 k) := by
  obtain ⟨hs, hm⟩ := edge_faces b.faces v1 v0
  have e0 : f.verts.getD e 0 = v0 := by simp [h0]
  have e1 : f.verts.getD ((e + 1) % f.verts.length) 0 = v1 := by simp [h1]
  have htest : ∀ j, (j ∈ edgeFaces b.faces v1 v0 ∧ continues realOps b tex i f j = true)
      ↔ Across b tex i f v0 v1 j := by
    intro j
    rw [hm]
    unfold Across continues
    by_cases hij : j = i
    · simp [hij]
    · constructor
      · rintro ⟨⟨g, hg, he⟩, ht⟩
        rw [if_neg hij, hg] at ht
        simp only [Bool.or_eq_true, decide_eq_true_eq, Bool.and_eq_true, beq_iff_eq] at ht
        exact ⟨hij, g, hg, he, ht⟩
      · rintro ⟨_, g, hg, he, ht⟩
        refine ⟨⟨g, hg, he⟩, ?_⟩
        rw [if_neg hij, hg]
        simpa using ht
  unfold edgeSmoothed
  simp only [e0, e1]
  constructor
  · intro j hj
    rw [List.find?_eq_some_iff_append] at hj
    obtain ⟨hp, as, bs, hl, hall⟩ := hj
    refine ⟨(htest j).1 ⟨by rw [hl]; simp, hp⟩, ?_⟩
    intro k hk ha
    obtain ⟨hk1, hk2⟩ := (htest k).2 ha
    rw [hl] at hk1 hs
    rw [List.pairwise_append] at hs
    rcases List.mem_append.1 hk1 with hka | hkb
    · have := hall k hka
      rw [hk2] at this
      exact absurd this (by decide)
    · rcases List.mem_cons.1 hkb with rfl | hkb
      · exact lt_irrefl _ hk
      · exact absurd ((List.pairwise_cons.1 hs.2.1).1 k hkb) (by omega)
  · intro hn k ha
    obtain ⟨hk1, hk2⟩ := (htest k).2 ha
    exact (List.find?_eq_none.1 hn k hk1) hk2

/-- The hypotheses of `edge_smoothed` can be met, and there is a face across the edge: two halves of a square. -/
example : ∃ (b : Bsp ℝ) (f : Face ℝ), b.faces[0]? = some f ∧ f.verts[1]? = some 1 ∧
    f.verts[(1 + 1) % f.verts.length]? = some 2 ∧
    Across b (fun _ => ⟨false, 0, 0, 0, 0, 0⟩) 0 f 1 2 1 := by
  refine ⟨⟨[⟨0, [0, 1, 2], ⟨0, 0, 1⟩, 0, 0, false⟩, ⟨0, [3, 2, 1], ⟨0, 0, 1⟩, 0, 0, false⟩], fun _ => ⟨0, 0, 0⟩, 1⟩,
    _, rfl, rfl, rfl, by norm_num, _, rfl, ⟨by norm_num, 1, rfl, rfl⟩, Or.inr ⟨rfl, rfl⟩⟩

/-- C177: in whatever order threads record the normals, once none is left to record, every face has the normals that
were computed for it, in the order of its vertices. -/
theorem normals_any_order (todo : Nat → List (Vec ℝ)) (w : Work ℝ) (hs : Work.Steps (Work.start todo) w)
    (hend : ∀ i, w.todo i = []) : w.normals = todo := by
  have inv : ∀ w : Work ℝ, Work.Steps (Work.start todo) w → ∀ i, w.normals i ++ w.todo i = todo i := by
    intro w hs
    generalize hw : Work.start todo = w0 at hs
    induction hs with
    | refl => subst hw; intro i; rfl
    | step w' w'' h h' ih =>
      cases h' with
      | record i n ns hi =>
        intro j
        by_cases hj : j = i
        · subst hj
          simp only [Function.update_self]
          rw [List.append_assoc, List.singleton_append, ← hi]
          exact ih j
        · simp only [Function.update_of_ne hj]
          exact ih j
  funext i
  have := inv w hs i
  rwa [hend i, List.append_nil] at this

/-- C177: until then some thread can go on, and there is an end: each step leaves one normal less to record. -/
theorem normals_progress (w : Work ℝ) (i : Nat) (h : w.todo i ≠ []) :
    ∃ w', Work.Step w w' ∧ (w'.todo i).length + 1 = (w.todo i).length ∧ ∀ j ≠ i, w'.todo j = w.todo j := by
  cases hi : w.todo i with
  | nil => exact absurd hi h
  | cons n ns =>
    refine ⟨_, Work.Step.record w i n ns hi, by simp, ?_⟩
    intro j hj
    simp [Function.update_of_ne hj]

/-- C177: what is then read for a vertex of a face is the normal computed for it; a face without normals has a zero one. -/
theorem normal_read (todo : Nat → List (Vec ℝ)) (w : Work ℝ) (hs : Work.Steps (Work.start todo) w)
    (hend : ∀ i, w.todo i = []) (i v : Nat) :
    (todo i = [] → w.get i v = .ok ⟨0, 0, 0⟩) ∧ (∀ n, (todo i)[v]? = some n → w.get i v = .ok n) := by
  have h := normals_any_order todo w hs hend
  unfold Work.get
  rw [h]
  refine ⟨fun h0 => by rw [if_pos h0], fun n hn => ?_⟩
  rw [if_neg (fun h0 => by rw [h0] at hn; simp at hn), hn]

/-- The hypotheses of `normals_any_order` can be met: two faces, the second recorded first. -/
example : ∃ (todo : Nat → List (Vec ℝ)) (w : Work ℝ), Work.Steps (Work.start todo) w ∧ (∀ i, w.todo i = []) ∧
    todo 0 ≠ [] ∧ todo 1 ≠ [] := by
  refine ⟨fun i => if i = 0 then [⟨1, 0, 0⟩] else if i = 1 then [⟨0, 1, 0⟩] else [], _,
    .step _ _ _ (.step _ _ _ (.refl _) (.record _ 1 ⟨0, 1, 0⟩ [] (by simp [Work.start])))
      (.record _ 0 ⟨1, 0, 0⟩ [] (by simp [Work.start])), ?_, by simp, by simp⟩
  intro i
  by_cases h0 : i = 0
  · simp [h0]
  · by_cases h1 : i = 1
    · simp [h1]
    · simp [Function.update_of_ne h0, Function.update_of_ne h1, Work.start, h0, h1]

end Verif.Phong
