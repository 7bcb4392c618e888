import Verif.Faces.EdgeLemmas
import Verif.Geom.AabbProps
import Mathlib.Algebra.Order.Field.Rat

/-! Properties of the vertices that T-junction fixing inserts on edges (C60, C85, C86). -/

namespace Verif.Faces

open Verif.Geom Spec

set_option linter.unusedSectionVars false

variable {K : Type} [Field K] [LinearOrder K] {C : Type}

/-- C60: `TestEdge` yields the start of the edge and then candidates that lie on the edge strictly between its ends; they
are ordered along the edge, up to the rounding of the ends to `float`; and no other candidate lies strictly inside a part
of the edge. -/
theorem edge_vertices (l : Line K) (pos : Nat → Vec K) (hr : Rounding l.rnd) (start stop : K) (p1 p2 : Nat) (h : p1 ≠ p2)
    (cands : List Nat) :
    ∃ mids, testEdge l pos start stop p1 p2 cands = p1 :: mids ∧
      (∀ j ∈ mids, j ∈ cands ∧ InsideEdge l start stop (pos j)) ∧
      mids.Pairwise (fun a b => l.rnd (Param l (pos a)) ≤ l.rnd (Param l (pos b))) ∧
      ∀ j ∈ cands, j ∉ p1 :: mids → j ≠ p2 →
        List.IsChain (fun a b => ¬ InsideEdge l a b (pos j)) (start :: mids.map (fun j => Param l (pos j)) ++ [stop]) := by
  obtain ⟨mids, h1, h2, h3, h4⟩ := testEdge_main l pos hr cands start stop p1 p2 h
  refine ⟨mids, h1, h2, h3.imp ?_, fun j hj hout hp2 => h4.imp fun a b hs => hs.2 j hj hout hp2⟩
  rintro a b (hab | hab)
  · have := hr.1 _ _ (le_of_lt hab)
    rwa [hr.2] at this
  · have := hr.1 _ _ (le_of_lt hab)
    rwa [hr.2] at this

/-- C60 when the ends are not rounded: the vertices are strictly increasing along the edge. -/
theorem edge_vertices_exact (l : Line K) (pos : Nat → Vec K) (hr : ∀ a, l.rnd a = a) (start stop : K) (p1 p2 : Nat)
    (h : p1 ≠ p2) (cands : List Nat) :
    ∃ mids, testEdge l pos start stop p1 p2 cands = p1 :: mids ∧
      (∀ j ∈ mids, j ∈ cands ∧ Near l (pos j) ∧ start < Param l (pos j) ∧ Param l (pos j) < stop) ∧
      mids.Pairwise (fun a b => Param l (pos a) < Param l (pos b)) ∧
      ∀ j ∈ cands, j ∉ p1 :: mids → j ≠ p2 → Near l (pos j) →
        List.IsChain (fun a b => ¬ (a < Param l (pos j) ∧ Param l (pos j) < b))
          (start :: mids.map (fun j => Param l (pos j)) ++ [stop]) := by
  have hr' : Rounding l.rnd := ⟨fun a b hab => by rw [hr, hr]; exact hab, fun a => hr _⟩
  obtain ⟨mids, h1, h2, h3, h4⟩ := testEdge_main l pos hr' cands start stop p1 p2 h
  refine ⟨mids, h1, fun j hj => ?_, h3.imp ?_, fun j hj hout hp2 hn => h4.imp fun a b hs hab => ?_⟩
  · obtain ⟨a, b, c, d⟩ := h2 j hj
    rw [hr] at c d
    exact ⟨a, b, c, d⟩
  · intro a b hab
    simp only [hr, or_self] at hab
    exact hab
  · exact hs.2 j hj hout hp2 ⟨hn, by rw [hr]; exact hab.1, by rw [hr]; exact hab.2⟩

/-- An edge with the same vertex at both ends yields nothing. -/
theorem edge_degenerate (l : Line K) (pos : Nat → Vec K) (start stop : K) (p : Nat) (cands : List Nat) :
    testEdge l pos start stop p p cands = [] := by
  cases cands <;> simp [testEdge]

section
variable [IsStrictOrderedRing K]

theorem inside_not_disjoint {b o : Box K 3} {p : Pt K 3} (h1 : Geom.Spec.Inside b p) (h2 : Geom.Spec.Inside o p) :
    b.disjoint o 0 = false := by
  unfold Box.disjoint
  rw [Box.anyAxis_false]
  intro i
  have a := h1 i
  have b := h2 i
  simp only [Bool.or_eq_false_iff, decide_eq_false_iff_not, not_lt, sub_zero, gt_iff_lt, add_zero]
  exact ⟨le_trans b.1 a.2, le_trans a.1 b.2⟩

theorem findVerts_mem (pos : Nat → Vec K) (inter : TFace C → TFace C → Bool) (f : TFace C) (box : Box K 3) (v : Nat)
    (hv : Geom.Spec.Inside box (toPt (pos v))) :
    ∀ t : FTree K C, Bounded pos t → VertexOf (inter f) v t → v ∈ findVertsIn pos inter f box t := by
  intro t
  induction t with
  | leaf => intro _ h; exact h.elim
  | node bounds faces front back ih1 ih2 =>
    intro hb hv'
    have hw : VertexOf (fun _ => true) v (.node bounds faces front back) := by
      have weaken : ∀ t : FTree K C, VertexOf (inter f) v t → VertexOf (fun _ => true) v t := by
        intro t
        induction t with
        | leaf => exact id
        | node _ _ _ _ i1 i2 =>
          rintro (⟨g, hg, -, hm⟩ | h | h)
          · exact Or.inl ⟨g, hg, rfl, hm⟩
          · exact Or.inr (Or.inl (i1 h))
          · exact Or.inr (Or.inr (i2 h))
      exact weaken _ hv'
    unfold findVertsIn
    rw [inside_not_disjoint (hb.1 v hw) hv]
    simp only [Bool.false_eq_true, if_false, List.mem_append, List.mem_flatMap, List.mem_filter]
    rcases hv' with ⟨g, hg, hi, hm⟩ | h | h
    · exact Or.inl (Or.inl ⟨g, ⟨hg, hi⟩, hm, (Box.containsPoint_iff _ _).mpr hv⟩)
    · exact Or.inl (Or.inr (ih1 hb.2.1 h))
    · exact Or.inr (ih2 hb.2.2 h)

theorem findVerts_sub (pos : Nat → Vec K) (inter : TFace C → TFace C → Bool) (f : TFace C) (box : Box K 3) (v : Nat) :
    ∀ t : FTree K C, v ∈ findVertsIn pos inter f box t → VertexOf (inter f) v t := by
  intro t
  induction t with
  | leaf => intro h; cases h
  | node bounds faces front back ih1 ih2 =>
    intro h
    unfold findVertsIn at h
    split at h
    · cases h
    · simp only [List.mem_append, List.mem_flatMap, List.mem_filter] at h
      rcases h with (⟨g, ⟨hg, hi⟩, hm, -⟩ | h) | h
      · exact Or.inl ⟨g, hg, hi, hm⟩
      · exact Or.inr (Or.inl (ih1 h))
      · exact Or.inr (Or.inr (ih2 h))

/-- One coordinate of a point near the edge is within 1 of the range of the edge. -/
theorem coord_near {s e d len t r eps off : K} (he : e - s = d * len) (hd : d * d ≤ 1) (h0 : 0 < t) (ht : t < r)
    (hr : r - len ≤ 1 - eps) (heps : 0 ≤ eps) (heps1 : eps ≤ 1) (hoff : off * off ≤ eps * eps) :
    min s e - 1 ≤ s + d * t + off ∧ s + d * t + off ≤ max s e + 1 := by
  have ho : |off| ≤ eps := abs_le_of_sq_le_sq (by rw [pow_two, pow_two]; exact hoff) heps
  have hd1 : |d| ≤ 1 := abs_le_of_sq_le_sq (by rw [pow_two, pow_two]; linarith) zero_le_one
  rw [abs_le] at ho hd1
  have hmin1 : min s e ≤ s := min_le_left _ _
  have hmin2 : min s e ≤ e := min_le_right _ _
  have hmax1 : s ≤ max s e := le_max_left _ _
  have hmax2 : e ≤ max s e := le_max_right _ _
  have htl : t ≤ len + (1 - eps) := by linarith
  rcases le_total 0 d with hd0 | hd0
  · have h1 : 0 ≤ d * t := mul_nonneg hd0 (le_of_lt h0)
    have h2 : d * t ≤ d * (len + (1 - eps)) := mul_le_mul_of_nonneg_left htl hd0
    have h3 : d * (1 - eps) ≤ 1 * (1 - eps) := mul_le_mul_of_nonneg_right hd1.2 (by linarith)
    constructor
    · linarith
    · rw [mul_add] at h2; linarith
  · have h1 : d * t ≤ 0 := mul_nonpos_of_nonpos_of_nonneg hd0 (le_of_lt h0)
    have h2 : d * (len + (1 - eps)) ≤ d * t := mul_le_mul_of_nonpos_left htl hd0
    have h3 : -1 * (1 - eps) ≤ d * (1 - eps) := mul_le_mul_of_nonneg_right hd1.1 (by linarith)
    constructor
    · rw [mul_add] at h2; linarith
    · linarith

theorem edge_box (lowest mx : K) (p1 p2 q : Vec K)
    (h : ∀ i, min (toPt p1 i) (toPt p2 i) - 1 ≤ toPt q i ∧ toPt q i ≤ max (toPt p1 i) (toPt p2 i) + 1) :
    Geom.Spec.Inside ((((Box.empty lowest mx).expand (toPt p1)).expand (toPt p2)).grow fun _ => 1 : Box K 3) (toPt q) := by
  intro i
  have hi := h i
  rw [Box.expand_eq, Box.expand_eq]
  unfold Box.grow Box.mk' Box.expandInPlace Box.empty
  simp only
  constructor
  · refine le_trans ?_ hi.1
    apply sub_le_sub_right
    refine le_min (le_trans (min_le_left _ _) (min_le_right _ _)) (min_le_right _ _)
  · have hb : toPt q i ≤ max (max lowest (toPt p1 i)) (toPt p2 i) + 1 := by
      refine le_trans hi.2 ?_
      apply add_le_add_left
      exact max_le (le_trans (le_max_right _ _) (le_max_left _ _)) (le_max_right _ _)
    split
    · next hlt => exact le_trans hb (le_of_lt hlt)
    · exact hb

/-- C85: T-junction fixing leaves no T-junction behind. Every edge of the face becomes a part of the superface, in order;
on it, no vertex of any interacting face of the tree lies strictly inside a part of the edge. -/
theorem superface_free (w : World K C) (f : TFace C) (hb : Bounded w.pos w.head) (hr : Rounding w.rnd) (h0 : w.rnd 0 = 0)
    (he0 : 0 ≤ w.eps) (he1 : w.eps ≤ 1) (hn : ∀ e ∈ cyclicPairs f.verts, e.1 ≠ e.2 → Normal w e) :
    ∃ segs : List (List Nat), createSuperFace w f = segs.flatten ∧
      List.Forall₂ (EdgeFixed w f) (cyclicPairs f.verts) segs := by
  refine ⟨(cyclicPairs f.verts).map fun e => superEdge w f e.1 e.2, by rw [createSuperFace, List.flatMap], ?_⟩
  have key : ∀ es : List (Nat × Nat), (∀ e ∈ es, EdgeFixed w f e (superEdge w f e.1 e.2)) →
      List.Forall₂ (EdgeFixed w f) es (es.map fun e => superEdge w f e.1 e.2) := by
    intro es
    induction es with
    | nil => intro _; exact List.Forall₂.nil
    | cons e es ih =>
      intro h
      exact List.Forall₂.cons (h e List.mem_cons_self) (ih fun e' he' => h e' (List.mem_cons_of_mem _ he'))
  apply key
  rintro ⟨v1, v2⟩ he
  unfold EdgeFixed superEdge
  simp only
  by_cases hv : v1 = v2
  · rw [if_pos hv, hv, edge_degenerate]
  · rw [if_neg hv]
    obtain ⟨⟨nx, ny, nz⟩, hu, hrl⟩ := hn _ he hv
    simp only at nx ny nz hu hrl
    have hvs : vsub (w.pos v2) (w.pos v1) =
      ⟨(w.pos v2).x - (w.pos v1).x, (w.pos v2).y - (w.pos v1).y, (w.pos v2).z - (w.pos v1).z⟩ := rfl
    rw [hvs]
    generalize w.normalize ⟨(w.pos v2).x - (w.pos v1).x, (w.pos v2).y - (w.pos v1).y, (w.pos v2).z - (w.pos v1).z⟩ = n at *
    obtain ⟨mids, m1, m2, -, m4⟩ := edge_vertices ⟨w.pos v1, n.1, w.eps, w.rnd⟩ w.pos hr 0 n.2 v1 v2 hv
      (findEdgeVerts w.lowest w.max w.pos w.inter w.head f (w.pos v1) (w.pos v2))
    refine ⟨mids, m1, ?_, ?_⟩
    · intro j hj
      exact ⟨findVerts_sub _ _ _ _ _ _ (m2 j hj).1, (m2 j hj).2⟩
    · intro j hj hout hp2
      by_cases hc : j ∈ findEdgeVerts w.lowest w.max w.pos w.inter w.head f (w.pos v1) (w.pos v2)
      · exact m4 j hc (m1 ▸ hout) hp2
      · -- not a candidate: it is outside of the box and cannot be on the edge
        have hnot : ¬ InsideEdge ⟨w.pos v1, n.1, w.eps, w.rnd⟩ 0 n.2 (w.pos j) := by
          intro hin
          apply hc
          refine findVerts_mem _ _ _ _ _ ?_ _ hb hj
          apply edge_box
          obtain ⟨hnear, hlo, hhi⟩ := hin
          unfold Near at hnear
          simp only [h0] at hlo hhi hnear
          set t := Param (⟨w.pos v1, n.1, w.eps, w.rnd⟩ : Line K) (w.pos j) with ht
          have sq := fun a : K => mul_self_nonneg a
          have s1 := sq n.1.x
          have s2 := sq n.1.y
          have s3 := sq n.1.z
          have o1 := sq ((w.pos j).x - ((w.pos v1).x + n.1.x * t))
          have o2 := sq ((w.pos j).y - ((w.pos v1).y + n.1.y * t))
          have o3 := sq ((w.pos j).z - ((w.pos v1).z + n.1.z * t))
          have cx := coord_near (s := (w.pos v1).x) (e := (w.pos v2).x) (d := n.1.x) nx.symm
            (by linarith) hlo hhi hrl he0 he1 (off := (w.pos j).x - ((w.pos v1).x + n.1.x * t)) (by linarith)
          have cy := coord_near (s := (w.pos v1).y) (e := (w.pos v2).y) (d := n.1.y) ny.symm
            (by linarith) hlo hhi hrl he0 he1 (off := (w.pos j).y - ((w.pos v1).y + n.1.y * t)) (by linarith)
          have cz := coord_near (s := (w.pos v1).z) (e := (w.pos v2).z) (d := n.1.z) nz.symm
            (by linarith) hlo hhi hrl he0 he1 (off := (w.pos j).z - ((w.pos v1).z + n.1.z * t)) (by linarith)
          rw [add_sub_cancel] at cx cy cz
          intro i
          unfold toPt
          by_cases i0 : i = 0
          · simp only [i0, if_true]; exact cx
          · by_cases i1 : i = 1
            · simp only [i1, if_true, if_neg (show (1 : Fin 3) ≠ 0 by decide)]; exact cy
            · simp only [i0, i1, if_false]; exact cz
        -- the parts of the edge lie within the edge
        have hchain := testEdge_main ⟨w.pos v1, n.1, w.eps, w.rnd⟩ w.pos hr
          (findEdgeVerts w.lowest w.max w.pos w.inter w.head f (w.pos v1) (w.pos v2)) 0 n.2 v1 v2 hv
        obtain ⟨mids', a1, -, -, a4⟩ := hchain
        have : mids' = mids := by
          rw [a1] at m1
          exact (List.cons.inj m1).2
        subst this
        refine a4.imp ?_
        rintro a b ⟨hab, -⟩ hin
        exact hnot ⟨hin.1, lt_of_le_of_lt hab.1 hin.2.1, lt_of_lt_of_le hin.2.2 hab.2⟩

end

/-- C86: whether two faces interact does not depend on their order when the comparison of types does not. -/
theorem welds_symm (o : WeldOps C) (ht : ∀ a b, o.typesEqual a b = o.typesEqual b a) (a b : C) :
    welds o a b = welds o b a := by
  unfold welds
  rw [ht a b]
  cases o.typesEqual b a <;> cases o.isDetailWall a <;> cases o.isDetailWall b <;> cases o.isOpaque a <;>
    cases o.isOpaque b <;> cases o.isEmpty a <;> cases o.isEmpty b <;> rfl

/-- C86: contents weld when they have the same type, or when neither is a detail wall or empty and both are opaque or both
are not. -/
theorem welds_iff (o : WeldOps C) (a b : C) :
    welds o a b = true ↔ o.typesEqual a b = true ∨
      (o.isDetailWall a = false ∧ o.isDetailWall b = false ∧ o.isOpaque a = o.isOpaque b ∧
        o.isEmpty a = false ∧ o.isEmpty b = false) := by
  unfold welds
  cases o.typesEqual a b <;> cases o.isDetailWall a <;> cases o.isDetailWall b <;> cases o.isOpaque a <;>
    cases o.isOpaque b <;> cases o.isEmpty a <;> cases o.isEmpty b <;> simp

/-- C86 for the Quake-like games and for Quake II. -/
theorem interacts_symm (transwater : Bool) (f g : TFace Contents.Contents) :
    interacts (q1Weld transwater) f g = interacts (q1Weld transwater) g f ∧ interacts q2Weld f g = interacts q2Weld g f :=
  ⟨welds_symm _ (fun a b => Bool.beq_comm) _ _, welds_symm _ (fun a b => Bool.beq_comm) _ _⟩

/-- C86: a face interacts with itself and with every face of the same contents. -/
theorem interacts_refl (transwater : Bool) (f g : TFace Contents.Contents) (h : f.contents = g.contents) :
    interacts (q1Weld transwater) f g = true ∧ interacts q2Weld f g = true := by
  unfold interacts
  rw [welds_iff, welds_iff, h]
  exact ⟨Or.inl (by simp [q1Weld]), Or.inl (by simp [q2Weld])⟩

/-! ## A concrete case -/

/-- The corners 0 to 3 of a square, and the vertices 4 to 6 of a triangle below it; 4 and 5 lie on the edge from 0 to 1. -/
def exPos (i : Nat) : Vec ℚ :=
  match i with
  | 0 => ⟨0, 0, 0⟩ | 1 => ⟨10, 0, 0⟩ | 2 => ⟨10, 10, 0⟩ | 3 => ⟨0, 10, 0⟩ | 4 => ⟨4, 0, 0⟩ | 5 => ⟨7, 0, 0⟩
  | _ => ⟨4, -10, 0⟩

/-- Normalization of vectors along an axis. -/
def exNormalize (v : Vec ℚ) : Vec ℚ × ℚ :=
  let len := |v.x| + |v.y| + |v.z|
  (⟨v.x / len, v.y / len, v.z / len⟩, len)

def exWorld : World ℚ Unit :=
  ⟨-1000, 1000, 1/10, fun a => a, exNormalize, exPos, fun _ _ => true,
    .node ⟨fun _ => -20, fun _ => 20⟩ [⟨(), [0, 1, 2, 3]⟩, ⟨(), [5, 4, 6]⟩] .leaf .leaf⟩

example : createSuperFace exWorld ⟨(), [0, 1, 2, 3]⟩ = [0, 4, 5, 1, 2, 3] := by decide +kernel

example : Bounded exWorld.pos exWorld.head ∧ Rounding exWorld.rnd ∧ exWorld.rnd 0 = 0 ∧ 0 ≤ exWorld.eps ∧ exWorld.eps ≤ 1 ∧
    ∀ e ∈ cyclicPairs [0, 1, 2, 3], e.1 ≠ e.2 → Normal exWorld e := by
  refine ⟨⟨?_, trivial, trivial⟩, ⟨fun _ _ h => h, fun _ => rfl⟩, rfl, by decide +kernel, by decide +kernel, ?_⟩
  · intro v hv
    have h : v ∈ [0, 1, 2, 3, 5, 4, 6] := by
      rcases hv with ⟨g, hg, -, hm⟩ | h | h
      · rcases List.mem_cons.mp hg with rfl | hg
        · simp only [List.mem_cons, List.not_mem_nil, or_false] at hm ⊢; omega
        · rcases List.mem_singleton.mp hg with rfl
          simp only [List.mem_cons, List.not_mem_nil, or_false] at hm ⊢; omega
      · exact h.elim
      · exact h.elim
    have all : ∀ v ∈ [0, 1, 2, 3, 5, 4, 6], ∀ i : Fin 3, (-20 : ℚ) ≤ toPt (exPos v) i ∧ toPt (exPos v) i ≤ 20 := by
      decide +kernel
    exact all v h
  · unfold Normal
    decide +kernel

example : interacts (q1Weld false) ⟨Contents.SOLID, []⟩ ⟨Contents.Q1.detailWall, []⟩ = false ∧
    interacts (q1Weld false) ⟨Contents.SOLID, []⟩ ⟨Contents.WATER, []⟩ = true ∧
    interacts (q1Weld true) ⟨Contents.SOLID, []⟩ ⟨Contents.WATER, []⟩ = false := by decide +kernel

end Verif.Faces
