import Verif.Emit.Vertices
import Verif.Tree.PlaneProps
import Mathlib.Data.List.Nodup

/-! **C91.** The vertices of the file. -/

namespace Verif.Emit

open Geom Verif.Tree.Spec

set_option linter.unusedSectionVars false

variable {K : Type} [Field K] [LinearOrder K] [IsStrictOrderedRing K]

namespace Spec

/-- Two points agree up to a tolerance in each coordinate. -/
def Close (eps : K) (p q : Vec K) : Prop := |p.x - q.x| ≤ eps ∧ |p.y - q.y| ≤ eps ∧ |p.z - q.z| ≤ eps

end Spec

open Spec

theorem inVertBox_close {eps : K} {p q : Vec K} : inVertBox eps p q ↔ Close eps p q := by
  unfold inVertBox Close
  constructor
  · rintro ⟨a, b, c, d, e, f⟩
    refine ⟨abs_le.2 ⟨by linarith, by linarith⟩, abs_le.2 ⟨by linarith, by linarith⟩, abs_le.2 ⟨by linarith, by linarith⟩⟩
  · rintro ⟨a, b, c⟩
    have a := abs_le.1 a
    have b := abs_le.1 b
    have c := abs_le.1 c
    refine ⟨by linarith, by linarith, by linarith, by linarith, by linarith, by linarith⟩

theorem close_symm {eps : K} {p q : Vec K} (h : Close eps p q) : Close eps q p := by
  obtain ⟨a, b, c⟩ := h
  exact ⟨by rwa [abs_sub_comm], by rwa [abs_sub_comm], by rwa [abs_sub_comm]⟩

theorem close_refl {eps : K} (h : 0 ≤ eps) (p : Vec K) : Close eps p p := by
  simp [Close, h]

theorem close_trans {e1 e2 : K} {p q r : Vec K} (h : Close e1 p q) (h' : Close e2 q r) : Close (e1 + e2) p r := by
  obtain ⟨a, b, c⟩ := h
  obtain ⟨a', b', c'⟩ := h'
  refine ⟨?_, ?_, ?_⟩
  · calc |p.x - r.x| = |(p.x - q.x) + (q.x - r.x)| := by ring_nf
      _ ≤ _ := (abs_add_le _ _).trans (add_le_add a a')
  · calc |p.y - r.y| = |(p.y - q.y) + (q.y - r.y)| := by ring_nf
      _ ≤ _ := (abs_add_le _ _).trans (add_le_add b b')
  · calc |p.z - r.z| = |(p.z - q.z) + (q.z - r.z)| := by ring_nf
      _ ≤ _ := (abs_add_le _ _).trans (add_le_add c c')

/-- The database holds the points `pts`: entry `i` of the map is point `i`, whose conversion is vertex `i`; no two are
close. -/
structure Holds (eps : K) (rnd : K → K) (db : VertDb K) (pts : List (Vec K)) : Prop where
  hash : db.hash = pts.zipIdx
  verts : db.verts = pts.map (rndVec rnd)
  apart : pts.Pairwise fun p q => ¬ Close eps p q

theorem findVert_some {eps : K} {rnd : K → K} {pick : List Nat → Nat} {db : VertDb K} {pts : List (Vec K)}
    (h : Holds eps rnd db pts) {p : Vec K} {n : Nat} (hn : findVert eps pick db p = some n) :
    ∃ q, pts[n]? = some q ∧ Close eps p q := by
  unfold findVert at hn
  have := List.mem_of_getElem? hn
  simp only [List.mem_map, List.mem_filter, decide_eq_true_eq] at this
  obtain ⟨⟨q, m⟩, ⟨h1, h2⟩, rfl⟩ := this
  rw [h.hash] at h1
  exact ⟨q, List.mem_zipIdx_iff_getElem?.1 h1, inVertBox_close.1 h2⟩

theorem findVert_none {eps : K} {rnd : K → K} {pick : List Nat → Nat} (hp : PickOk pick) {db : VertDb K}
    {pts : List (Vec K)} (h : Holds eps rnd db pts) {p : Vec K} (hn : findVert eps pick db p = none) :
    ∀ q ∈ pts, ¬ Close eps p q := by
  intro q hq hc
  unfold findVert at hn
  obtain ⟨i, hi, rfl⟩ := List.mem_iff_getElem.1 hq
  have hm : i ∈ (db.hash.filter fun e => inVertBox eps p e.1).map (·.2) := by
    simp only [List.mem_map, List.mem_filter, decide_eq_true_eq]
    refine ⟨(pts[i], i), ⟨?_, inVertBox_close.2 hc⟩, rfl⟩
    rw [h.hash]
    exact List.mem_zipIdx_iff_getElem?.2 (List.getElem?_eq_getElem hi)
  have hne : (db.hash.filter fun e => inVertBox eps p e.1).map (·.2) ≠ [] := List.ne_nil_of_mem hm
  have := hp _ hne
  rw [List.getElem?_eq_none_iff] at hn
  omega

theorem emitVertex_spec {eps : K} (he : 0 ≤ eps) {rnd : K → K} {pick : List Nat → Nat} (hp : PickOk pick) {db : VertDb K}
    {pts : List (Vec K)} (h : Holds eps rnd db pts) (p : Vec K) :
    ∃ new, Holds eps rnd (emitVertex eps rnd pick db p).2 (pts ++ new) ∧ (∀ q ∈ new, q = p) ∧
      ∃ q, (pts ++ new)[(emitVertex eps rnd pick db p).1]? = some q ∧ Close eps p q := by
  unfold emitVertex
  rcases hf : findVert eps pick db p with _ | n
  · have hno := findVert_none hp h hf
    refine ⟨[p], ⟨?_, ?_, ?_⟩, by simp, p, ?_, close_refl he p⟩
    · simp only [emplaceVert]
      rw [if_neg]
      · rw [h.hash, h.verts, List.zipIdx_append]
        simp
      · simp only [List.any_eq_true, decide_eq_true_eq, not_exists, not_and]
        rintro ⟨q, m⟩ hm rfl
        rw [h.hash] at hm
        exact hno q (List.mem_of_getElem? (List.mem_zipIdx_iff_getElem?.1 hm)) (close_refl he q)
    · simp [h.verts]
    · rw [List.pairwise_append]
      refine ⟨h.apart, by simp, ?_⟩
      intro a ha b hb hc
      simp only [List.mem_singleton] at hb
      subst hb
      exact hno a ha (close_symm hc)
    · simp [h.verts]
  · obtain ⟨q, h1, h2⟩ := findVert_some h hf
    exact ⟨[], by simpa using h, by simp, q, by simpa using h1, h2⟩

theorem emitWinding_spec {eps : K} (he : 0 ≤ eps) {rnd : K → K} {pick : List Nat → Nat} (hp : PickOk pick) :
    ∀ (w : List (Vec K)) {db : VertDb K} {pts : List (Vec K)}, Holds eps rnd db pts →
      ∃ new, Holds eps rnd (emitWinding eps rnd pick db w).2 (pts ++ new) ∧ (∀ q ∈ new, q ∈ w) ∧
        List.Forall₂ (fun n p => ∃ q, (pts ++ new)[n]? = some q ∧ Close eps p q) (emitWinding eps rnd pick db w).1 w := by
  intro w
  induction w with
  | nil => intro db pts h; exact ⟨[], by simpa [emitWinding] using h, by simp, .nil⟩
  | cons p w ih =>
    intro db pts h
    obtain ⟨n1, a1, a2, q, a3, a4⟩ := emitVertex_spec he hp h p
    obtain ⟨n2, b1, b2, b3⟩ := ih a1
    refine ⟨n1 ++ n2, by rw [← List.append_assoc]; exact b1, ?_, ?_⟩
    · intro r hr
      rcases List.mem_append.1 hr with hr | hr
      · rw [a2 r hr]; exact List.mem_cons_self
      · exact List.mem_cons_of_mem _ (b2 r hr)
    · rw [← List.append_assoc]
      refine .cons ⟨q, ?_, a4⟩ b3
      rw [List.getElem?_append_left (List.getElem?_eq_some_iff.1 a3).1]
      exact a3

theorem emitWindings_spec {eps : K} (he : 0 ≤ eps) {rnd : K → K} {pick : List Nat → Nat} (hp : PickOk pick) :
    ∀ (ws : List (List (Vec K))) {db : VertDb K} {pts : List (Vec K)}, Holds eps rnd db pts →
      ∃ new, Holds eps rnd (emitWindings eps rnd pick db ws).2 (pts ++ new) ∧ (∀ q ∈ new, q ∈ ws.flatten) ∧
        List.Forall₂ (List.Forall₂ fun n p => ∃ q, (pts ++ new)[n]? = some q ∧ Close eps p q)
          (emitWindings eps rnd pick db ws).1 ws := by
  intro ws
  induction ws with
  | nil => intro db pts h; exact ⟨[], by simpa [emitWindings] using h, by simp, .nil⟩
  | cons w ws ih =>
    intro db pts h
    obtain ⟨n1, a1, a2, a3⟩ := emitWinding_spec he hp w h
    obtain ⟨n2, b1, b2, b3⟩ := ih a1
    refine ⟨n1 ++ n2, by rw [← List.append_assoc]; exact b1, ?_, ?_⟩
    · intro r hr
      rw [List.flatten_cons, List.mem_append]
      rcases List.mem_append.1 hr with hr | hr
      · exact Or.inl (a2 r hr)
      · exact Or.inr (b2 r hr)
    · rw [← List.append_assoc]
      refine .cons (a3.imp ?_) b3
      rintro n p ⟨q, h1, h2⟩
      refine ⟨q, ?_, h2⟩
      rw [List.getElem?_append_left (List.getElem?_eq_some_iff.1 h1).1]
      exact h1

/-- **C91.** The vertices of the file are points of the faces, converted to `float`. Every point of every face is given
the number of a vertex of the file, which was made from a point at most `eps` away in each coordinate. No two vertices
were made from points that close to each other. -/
theorem emitted_vertices {eps : K} (he : 0 ≤ eps) {rnd : K → K} {pick : List Nat → Nat} (hp : PickOk pick)
    (ws : List (List (Vec K))) {nums : List (List Nat)} {db : VertDb K}
    (h : emitWindings eps rnd pick VertDb.empty ws = (nums, db)) :
    ∃ pts : List (Vec K), db.verts = pts.map (rndVec rnd) ∧ (∀ q ∈ pts, ∃ w ∈ ws, q ∈ w) ∧
      (pts.Pairwise fun p q => ¬ Close eps p q) ∧
      List.Forall₂ (List.Forall₂ fun n p => ∃ q, pts[n]? = some q ∧ Close eps p q) nums ws := by
  obtain ⟨new, h1, h2, h3⟩ := emitWindings_spec (rnd := rnd) he hp ws (db := VertDb.empty) (pts := [])
    ⟨rfl, rfl, List.Pairwise.nil⟩
  rw [h] at h1 h3
  simp only [List.nil_append] at h1 h3
  refine ⟨new, h1.verts, ?_, h1.apart, h3⟩
  intro q hq
  obtain ⟨w, hw, hq⟩ := List.mem_flatten.1 (h2 q hq)
  exact ⟨w, hw, hq⟩

/-- **C91.** A later model or face does not change the vertices that are there. -/
theorem emitted_vertices_stay {eps : K} {rnd : K → K} {pick : List Nat → Nat} (ws : List (List (Vec K))) (db : VertDb K) :
    db.verts <+: (emitWindings eps rnd pick db ws).2.verts := by
  have h1 : ∀ (w : List (Vec K)) (db : VertDb K), db.verts <+: (emitWinding eps rnd pick db w).2.verts := by
    intro w
    induction w with
    | nil => intro db; exact List.prefix_refl _
    | cons p w ih =>
      intro db
      refine List.IsPrefix.trans ?_ (ih (emitVertex eps rnd pick db p).2)
      unfold emitVertex
      split
      · exact List.prefix_refl _
      · exact List.prefix_append _ _
  induction ws generalizing db with
  | nil => exact List.prefix_refl _
  | cons w ws ih => exact (h1 w db).trans (ih _)

theorem forall₂_zip_mem {α β : Type} {R : α → β → Prop} : ∀ {a : List (List α)} {b : List (List β)},
    List.Forall₂ (List.Forall₂ R) a b → ∀ x ∈ a.flatten.zip b.flatten, R x.1 x.2 := by
  have key : ∀ {a : List α} {b : List β}, List.Forall₂ R a b → ∀ x ∈ a.zip b, R x.1 x.2 := by
    intro a b h
    induction h with
    | nil => simp
    | cons h _ ih =>
      intro x hx
      rw [List.zip_cons_cons, List.mem_cons] at hx
      rcases hx with rfl | hx
      · exact h
      · exact ih x hx
  intro a b h
  induction h with
  | nil => simp
  | cons h _ ih =>
    intro x hx
    rw [List.flatten_cons, List.flatten_cons, List.zip_append h.length_eq, List.mem_append] at hx
    rcases hx with hx | hx
    · exact key h x hx
    · exact ih x hx

/-- **C91.** Two faces that share a point are given vertices made from points at most `2 eps` apart: `m` and `n` are the
numbers that the point `p` is given in two places. -/
theorem shared_point_partial {eps : K} (he : 0 ≤ eps) {rnd : K → K} {pick : List Nat → Nat} (hp : PickOk pick)
    (ws : List (List (Vec K))) {nums : List (List Nat)} {db : VertDb K}
    (h : emitWindings eps rnd pick VertDb.empty ws = (nums, db)) {p : Vec K} {m n : Nat}
    (hm : (m, p) ∈ nums.flatten.zip ws.flatten) (hn : (n, p) ∈ nums.flatten.zip ws.flatten) :
    ∃ q r, db.verts[m]? = some (rndVec rnd q) ∧ db.verts[n]? = some (rndVec rnd r) ∧ Close (eps + eps) q r := by
  obtain ⟨pts, h1, -, -, h4⟩ := emitted_vertices he hp ws h
  obtain ⟨q, a1, a2⟩ := forall₂_zip_mem h4 _ hm
  obtain ⟨r, b1, b2⟩ := forall₂_zip_mem h4 _ hn
  exact ⟨q, r, by rw [h1, List.getElem?_map, a1]; rfl, by rw [h1, List.getElem?_map, b1]; rfl,
    close_trans (close_symm a2) b2⟩

/-- What is missing in `shared_point_partial`: the same point on two faces can be given two different vertices, if the
spatial map yields the newest entry of the box: the point 2 is welded to 0, and after 5 was added it is welded to 5. -/
theorem shared_point_false : ∃ (pick : List Nat → Nat), PickOk pick ∧
    (emitWindings (3 : ℚ) id pick VertDb.empty [[⟨0, 0, 0⟩, ⟨2, 0, 0⟩], [⟨5, 0, 0⟩, ⟨2, 0, 0⟩]]).1 = [[0, 0], [1, 1]] := by
  refine ⟨fun l => l.length - 1, ?_, by decide +kernel⟩
  intro l hl
  have := List.length_pos_iff.2 hl
  show l.length - 1 < l.length
  omega

/-- The hypotheses of the theorems hold, and welding happens. -/
example : PickOk (fun _ => 0) ∧
    (emitWindings (1 / 40 : ℚ) id (fun _ => 0) VertDb.empty
      [[⟨0, 0, 0⟩, ⟨8, 0, 0⟩, ⟨8, 8, 0⟩], [⟨8 + 1 / 64, 0, 0⟩, ⟨0, 1 / 64, 0⟩, ⟨0, -8, 0⟩]]).1 = [[0, 1, 2], [1, 0, 3]] ∧
    (emitWindings (1 / 40 : ℚ) id (fun _ => 0) VertDb.empty
      [[⟨0, 0, 0⟩, ⟨8, 0, 0⟩, ⟨8, 8, 0⟩], [⟨8 + 1 / 64, 0, 0⟩, ⟨0, 1 / 64, 0⟩, ⟨0, -8, 0⟩]]).2.verts =
        [⟨0, 0, 0⟩, ⟨8, 0, 0⟩, ⟨8, 8, 0⟩, ⟨0, -8, 0⟩] :=
  ⟨fun _ hl => List.length_pos_iff.2 hl, by decide +kernel, by decide +kernel⟩

end Verif.Emit
