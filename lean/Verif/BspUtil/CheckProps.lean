import Verif.BspUtil.CheckSpec
import Mathlib.Tactic.NormNum
import Mathlib.Tactic.Linarith
import Mathlib.Data.Fintype.Card
import Mathlib.Data.Finset.Card
import Mathlib.Algebra.Field.Rat
import Mathlib.Algebra.Order.Ring.Unbundled.Rat

/-! `bsputil --check`: C202, C203. -/

namespace Verif.BspUtil

open Geom Spec

variable {K : Type}

theorem mem_warn {c : Prop} [Decidable c] {w v : W} : v ∈ warn c w ↔ c ∧ v = w := by
  unfold warn
  split <;> simp [*]

theorem mem_each {α β : Type} (f : Nat → α → List β) (w : β) (l : List α) (s : Nat) :
    w ∈ each f s l ↔ ∃ i a, l[i]? = some a ∧ w ∈ f (s + i) a := by
  induction l generalizing s with
  | nil => simp [each]
  | cons a l ih =>
    rw [each, List.mem_append, ih]
    constructor
    · rintro (h | ⟨i, x, hx, h⟩)
      · exact ⟨0, a, rfl, h⟩
      · exact ⟨i + 1, x, by simpa using hx, by rwa [show s + (i + 1) = s + 1 + i by omega]⟩
    · rintro ⟨i, x, hx, h⟩
      cases i with
      | zero => simp at hx; subst hx; exact .inl h
      | succ i => exact .inr ⟨i, x, by simpa using hx, by rwa [show s + 1 + i = s + (i + 1) by omega]⟩

theorem mem_warnings (b : Bsp K) (w : W) : w ∈ warnings b ↔
    (∃ i f, b.faces[i]? = some f ∧ w ∈ checkFace b i f) ∨ (∃ i e, b.edges[i]? = some e ∧ w ∈ checkEdge b i e) ∨
    (∃ i e, b.surfedges[i]? = some e ∧ w ∈ checkSurf b i e) ∨ (∃ i e, b.marks[i]? = some e ∧ w ∈ checkMark b i e) ∨
    (∃ i l, b.leafs[i]? = some l ∧ w ∈ checkLeaf b i l) ∨ (∃ i n, b.nodes[i]? = some n ∧ w ∈ checkNode b i n) ∨
    (∃ i n, b.clipnodes[i]? = some n ∧ w ∈ checkClip b i n) ∨ w ∈ checkUnused b := by
  simp only [warnings, List.mem_append, mem_each, Nat.zero_add, or_assoc]

/-- **C202**: the references that the check covers are reported if and only if they are wrong: texinfos, planes and edges of faces,
edges, faces of leafs, and the children of nodes and clip nodes. -/
theorem check_reports_partial (b : Bsp K) (hb : Loaded b) (ho : noOverflow b) :
    (∀ (i : Nat) (f : Face), b.faces[i]? = some f →
      ((.texNeg i ∈ warnings b ∨ .texOut i ∈ warnings b) ↔ ¬ In f.texinfo b.texinfos) ∧
      ((.planeNeg i ∈ warnings b ∨ .planeOut i ∈ warnings b) ↔ ¬ In f.planenum b.planes.length) ∧
      ((.edgeNeg i ∈ warnings b ∨ .fewEdges i ∈ warnings b ∨ .edgesOut i ∈ warnings b) ↔
        ¬ (0 ≤ f.firstedge ∧ 3 ≤ f.numedges ∧ f.firstedge + f.numedges ≤ (b.surfedges.length : Int)))) ∧
    (∀ (i : Nat) (e : Int), b.surfedges[i]? = some e → ((.surfZero i ∈ warnings b ∨ .surfOut i ∈ warnings b) ↔ ¬ (e ≠ 0 ∧ |e| < b.edges.length))) ∧
    (∀ (i m : Nat), b.marks[i]? = some m → (.markOut i ∈ warnings b ↔ ¬ m < b.faces.length)) ∧
    (∀ (i : Nat) (l : Leaf), b.leafs[i]? = some l → l.firstmark + l.nummark < 2 ^ 32 →
      (.leafMarks i ∈ warnings b ↔ ¬ l.firstmark + l.nummark ≤ b.marks.length)) ∧
    (∀ (i : Nat) (n : Node), b.nodes[i]? = some n →
      ((.childNode i 0 ∈ warnings b ∨ .childLeaf i 0 ∈ warnings b) ↔ ¬ ChildOk b n.c0) ∧
      ((.childNode i 1 ∈ warnings b ∨ .childLeaf i 1 ∈ warnings b) ↔ ¬ ChildOk b n.c1) ∧
      (.sameNode i ∈ warnings b ↔ n.c0 = n.c1)) ∧
    (∀ (i : Nat) (n : Node), b.clipnodes[i]? = some n →
      ((.childClip i 0 ∈ warnings b ∨ .contents i 0 ∈ warnings b) ↔ ¬ ClipChildOk b n.c0) ∧
      ((.childClip i 1 ∈ warnings b ∨ .contents i 1 ∈ warnings b) ↔ ¬ ClipChildOk b n.c1) ∧
      (.sameClip i ∈ warnings b ↔ n.c0 = n.c1)) := by
  obtain ⟨s1, s2, s3, s4, s5⟩ := hb.sizes
  simp only [mem_warnings, checkFace, checkEdge, checkSurf, checkMark, checkLeaf, checkNode, checkChild, checkClip, checkClipChild, checkUnused,
    List.mem_append, mem_warn, or_assoc]
  refine ⟨fun i f hf => ?_, fun i e he => ?_, fun i m hm => ?_, fun i l hl hw => ?_, fun i n hn => ?_, fun i n hn => ?_⟩
  · obtain ⟨h1, h2, h3, h4, h5⟩ := hb.faces f (List.mem_of_getElem? hf)
    have h6 := ho.1 f (List.mem_of_getElem? hf)
    unfold fits at *
    simp only [toSize]
    refine ⟨?_, ?_, ?_⟩
    · simp [hf, In]
      split <;> omega
    · simp [hf, In]
      split <;> omega
    · simp [hf]
      split <;> omega
  · simp [he]
    tauto
  · simp [hm]
  · simp [hl]
    omega
  · have := ho.2.2 n (List.mem_of_getElem? hn)
    unfold fits at this
    have key : ∀ c : Int, ((0 ≤ c ∧ (b.nodes.length : Int) ≤ toSize c) ∨ (c < 0 ∧ (b.leafs.length : Int) ≤ toSize (-c - 1))) ↔ ¬ ChildOk b c := by
      intro c
      unfold toSize ChildOk
      split <;> split <;> split <;> omega
    simp [hn, key]
  · simp [hn, ClipChildOk, In, toSize]
    refine ⟨?_, ?_⟩
    · split <;> omega
    · split <;> omega

/-- **C202**: the numbers of texinfos, planes and vertices that nothing refers to are right, and given only if they are not 0. -/
theorem check_unused (b : Bsp K) (n : Nat) :
    (.unTexinfos n ∈ warnings b ↔ n ≠ 0 ∧ n = ((List.range b.texinfos).filter fun (i : Nat) => decide (∀ f ∈ b.faces, f.texinfo ≠ (i : Int))).length) ∧
    (.unPlanes n ∈ warnings b ↔ n ≠ 0 ∧ n = ((List.range b.planes.length).filter fun (i : Nat) => decide ((∀ f ∈ b.faces, f.planenum ≠ (i : Int)) ∧
      (∀ d ∈ b.nodes, d.planenum ≠ (i : Int)) ∧ ∀ d ∈ b.clipnodes, d.planenum ≠ (i : Int))).length) ∧
    (.unVertexes n ∈ warnings b ↔ n ≠ 0 ∧ n = ((List.range b.vertexes.length).filter fun (i : Nat) => decide (∀ e ∈ b.edges, e.1 ≠ i ∧ e.2 ≠ i)).length) := by
  simp only [mem_warnings, checkFace, checkEdge, checkSurf, checkMark, checkLeaf, checkNode, checkChild, checkClip, checkClipChild, checkUnused,
    List.mem_append, mem_warn, or_assoc]
  simp only [reduceCtorEq, and_false, or_false, exists_false, false_or, W.unTexinfos.injEq, W.unPlanes.injEq, W.unVertexes.injEq]
  have e1 : unreferenced b.texinfos (b.faces.map (·.texinfo)) =
      ((List.range b.texinfos).filter fun (i : Nat) => decide (∀ f ∈ b.faces, f.texinfo ≠ (i : Int))).length := by
    unfold unreferenced
    congr 2
    funext i
    simp
  have e2 : unreferenced b.planes.length (b.faces.map (·.planenum) ++ b.nodes.map (·.planenum) ++ b.clipnodes.map (·.planenum)) =
      ((List.range b.planes.length).filter fun (i : Nat) => decide ((∀ f ∈ b.faces, f.planenum ≠ (i : Int)) ∧
      (∀ d ∈ b.nodes, d.planenum ≠ (i : Int)) ∧ ∀ d ∈ b.clipnodes, d.planenum ≠ (i : Int))).length := by
    unfold unreferenced
    congr 2
    funext i
    simp [not_or, and_assoc]
  have e3 : unreferenced b.vertexes.length (b.edges.flatMap fun e => [(e.1 : Int), (e.2 : Int)]) =
      ((List.range b.vertexes.length).filter fun (i : Nat) => decide (∀ e ∈ b.edges, e.1 ≠ i ∧ e.2 ≠ i)).length := by
    unfold unreferenced
    congr 2
    funext i
    rw [Bool.eq_iff_iff]
    simp only [List.mem_flatMap, List.mem_cons, List.not_mem_nil, or_false, decide_eq_true_eq, not_exists, not_and, not_or]
    exact forall_congr' fun e => forall_congr' fun _ => and_congr (by omega) (by omega)
  rw [e1, e2, e3]
  refine ⟨⟨?_, ?_⟩, ⟨?_, ?_⟩, ⟨?_, ?_⟩⟩ <;> rintro ⟨h, rfl⟩ <;> exact ⟨h, rfl⟩

/-- **C202** is false of faces without light and of leafs without visibility: the offset -1, which stands for this, is reported as out of
range. -/
theorem unlit_reported (b : Bsp K) (hb : Loaded b) :
    (∀ (i : Nat) (f : Face), b.faces[i]? = some f → f.lightofs = -1 → .lightOut i ∈ warnings b) ∧
    (∀ (i : Nat) (l : Leaf), b.leafs[i]? = some l → l.visofs = -1 → .visOut i ∈ warnings b) := by
  obtain ⟨s1, s2, s3, s4, s5⟩ := hb.sizes
  simp only [mem_warnings, checkFace, checkEdge, checkSurf, checkMark, checkLeaf, checkNode, checkChild, checkClip, checkClipChild, checkUnused,
    List.mem_append, mem_warn, or_assoc]
  refine ⟨fun i f hf h => ?_, fun i l hl h => ?_⟩
  · simp [hf, h, toSize]
    omega
  · simp [hl, h, toSize]
    omega

/-- The other offsets are right: those below -1 and past the end are reported, and none within. -/
theorem offsets_reported (b : Bsp K) (hb : Loaded b) :
    (∀ (i : Nat) (f : Face), b.faces[i]? = some f → f.lightofs ≠ -1 →
      ((.lightNeg i ∈ warnings b ∨ .lightOut i ∈ warnings b) ↔ ¬ In f.lightofs b.lightdata)) ∧
    (∀ (i : Nat) (l : Leaf), b.leafs[i]? = some l → l.visofs ≠ -1 →
      ((.visNeg i ∈ warnings b ∨ .visOut i ∈ warnings b) ↔ ¬ In l.visofs b.visbits)) := by
  obtain ⟨s1, s2, s3, s4, s5⟩ := hb.sizes
  simp only [mem_warnings, checkFace, checkEdge, checkSurf, checkMark, checkLeaf, checkNode, checkChild, checkClip, checkClipChild, checkUnused,
    List.mem_append, mem_warn, or_assoc]
  refine ⟨fun i f hf h => ?_, fun i l hl h => ?_⟩
  · obtain ⟨h1, h2, h3, h4, h5⟩ := hb.faces f (List.mem_of_getElem? hf)
    unfold fits at *
    simp [hf, In, toSize]
    split <;> omega
  · have h3 := hb.leafs l (List.mem_of_getElem? hl)
    unfold fits at *
    simp [hl, In, toSize]
    split <;> omega

/-- A vertex is reported only if it is more than one past the end. -/
theorem vertex_reported (b : Bsp K) (i : Nat) (e : Nat × Nat) (he : b.edges[i]? = some e) :
    (.vertexOut i 0 ∈ warnings b ↔ b.vertexes.length < e.1) ∧ (.vertexOut i 1 ∈ warnings b ↔ b.vertexes.length < e.2) := by
  simp only [mem_warnings, checkFace, checkEdge, checkSurf, checkMark, checkLeaf, checkNode, checkChild, checkClip, checkClipChild, checkUnused,
    List.mem_append, mem_warn, or_assoc]
  obtain ⟨e1, e2⟩ := e
  simp [he]

/-! ### Heights -/

theorem height_tree (nodes : List Node) : ∀ (k : Nat) (n : Int) (h : Nat), 0 ≤ n → height nodes k n = .ok h → Tree nodes n h := by
  intro k
  induction k with
  | zero => intro n h _ hh; cases hh
  | succ k ih =>
    intro n h hn hh
    simp only [height] at hh
    split at hh
    · cases hh
    · rename_i d hd
      obtain ⟨h0, e0, hh⟩ := Outcome.bind_eq_ok.1 hh
      obtain ⟨h1, e1, hh⟩ := Outcome.bind_eq_ok.1 hh
      cases hh
      refine .node n d h0 h1 hn hd ?_ ?_
      · split at e0
        · exact ih _ _ (by assumption) e0
        · cases e0; exact .leaf _ (by omega)
      · split at e1
        · exact ih _ _ (by assumption) e1
        · cases e1; exact .leaf _ (by omega)

theorem tree_fun (nodes : List Node) {n : Int} {h : Nat} (t : Tree nodes n h) : ∀ {h'}, Tree nodes n h' → h' = h := by
  induction t with
  | leaf n hn =>
    intro h' t'
    cases t' with
    | leaf => rfl
    | node _ _ _ h1 h2 => omega
  | node n d h0 h1 hn hd _ _ ih0 ih1 =>
    intro h' t'
    cases t' with
    | leaf _ h => omega
    | node _ d' h0' h1' _ hd' t0 t1 =>
      rw [hd] at hd'
      cases hd'
      rw [ih0 t0, ih1 t1]

theorem tree_height (nodes : List Node) {n : Int} {h : Nat} (t : Tree nodes n h) : ∀ k, h ≤ k → 0 ≤ n → height nodes k n = .ok h := by
  induction t with
  | leaf n hn => intro k _ h; omega
  | node n d h0 h1 hn hd t0 t1 ih0 ih1 =>
    intro k hk _
    obtain ⟨k, rfl⟩ : ∃ k', k = k' + 1 := ⟨k - 1, by omega⟩
    have e0 : (if d.c0 ≥ 0 then height nodes k d.c0 else .ok 0) = .ok h0 := by
      split
      · exact ih0 k (by omega) (by assumption)
      · cases t0 with
        | leaf => rfl
        | node => omega
    have e1 : (if d.c1 ≥ 0 then height nodes k d.c1 else .ok 0) = .ok h1 := by
      split
      · exact ih1 k (by omega) (by assumption)
      · cases t1 with
        | leaf => rfl
        | node => omega
    simp only [height, hd, e0, e1, Outcome.ok_bind]

theorem tree_all (nodes : List Node) {n : Int} {h : Nat} (t : Tree nodes n h) : ∀ k, 1 ≤ k → k ≤ h → ∃ m : Nat, m < nodes.length ∧ Tree nodes m k := by
  induction t with
  | leaf n hn => intro k h1 h2; omega
  | node n d h0 h1 hn hd t0 t1 ih0 ih1 =>
    intro k hk1 hk2
    by_cases hk : k = max h0 h1 + 1
    · subst hk
      obtain ⟨hl, -⟩ := List.getElem?_eq_some_iff.1 hd
      refine ⟨n.toNat, hl, ?_⟩
      rw [Int.toNat_of_nonneg hn]
      exact .node n d h0 h1 hn hd t0 t1
    · by_cases h0k : k ≤ h0
      · exact ih0 k hk1 h0k
      · exact ih1 k hk1 (by omega)

/-- No tree is higher than there are nodes. -/
theorem tree_le (nodes : List Node) {n : Int} {h : Nat} (t : Tree nodes n h) : h ≤ nodes.length := by
  choose f hf using fun k : Fin h => tree_all nodes t (k.1 + 1) (by omega) (by omega)
  have inj : Function.Injective (fun k : Fin h => (⟨f k, (hf k).1⟩ : Fin nodes.length)) := by
    intro a b hab
    have : f a = f b := by simpa using hab
    have h1 := (hf a).2
    rw [this] at h1
    have := tree_fun nodes (hf b).2 h1
    exact Fin.ext (by omega)
  simpa using Fintype.card_le_of_injective _ inj

/-- **C203**: the heights are computed exactly for trees; for anything else the check is undefined. -/
theorem height_iff (nodes : List Node) (n : Int) (hn : 0 ≤ n) (h : Nat) : height nodes (nodes.length + 1) n = .ok h ↔ Tree nodes n h :=
  ⟨height_tree nodes _ n h hn, fun t => tree_height nodes t _ (by have := tree_le nodes t; omega) hn⟩

theorem height_not_error (nodes : List Node) : ∀ (k : Nat) (n : Int), height nodes k n ≠ .error := by
  intro k
  induction k with
  | zero => intro n h; cases h
  | succ k ih =>
    intro n h
    simp only [height] at h
    split at h
    · cases h
    · rcases Outcome.bind_eq_error.1 h with h | ⟨a, -, h⟩
      · split at h
        · exact ih _ h
        · cases h
      · rcases Outcome.bind_eq_error.1 h with h | ⟨c, -, h⟩
        · split at h
          · exact ih _ h
          · cases h
        · cases h

theorem visit_level (nodes : List Node) (l : Nat) : ∀ (L N : List Int) (k : Nat),
    visit nodes (k + L.length) (L.map (·, l) ++ N.map (·, l + 1)) =
      L.map (·, l) ++ visit nodes k ((N ++ if l < 3 then L.flatMap (below nodes) else []).map (·, l + 1)) := by
  intro L
  induction L with
  | nil => intro N k; simp
  | cons n L ih =>
    intro N k
    have := ih (N ++ if l < 3 then below nodes n else []) k
    rw [show k + (n :: L).length = (k + L.length) + 1 by simp; omega]
    simp only [List.map_cons, List.cons_append, visit]
    congr 1
    rw [List.append_assoc]
    by_cases hl : l < 3
    · simp only [hl, if_true, List.map_append] at this ⊢
      rw [this]
      simp [List.flatMap_cons]
    · simp only [hl, if_false, List.append_nil] at this ⊢
      rw [this]

theorem below_le (nodes : List Node) (n : Int) : (below nodes n).length ≤ 2 := by
  unfold below
  split
  · simp
  · exact (List.length_filter_le _ _).trans (by simp)

theorem level_le (nodes : List Node) (n : Int) : ∀ k, (level nodes n k).length ≤ 2 ^ k := by
  intro k
  induction k with
  | zero => simp [level]
  | succ k ih =>
    have : ∀ l : List Int, (l.flatMap (below nodes)).length ≤ 2 * l.length := by
      intro l
      induction l with
      | nil => simp
      | cons a l ih =>
        have := below_le nodes a
        simp only [List.flatMap_cons, List.length_append, List.length_cons]
        omega
    have := this (level nodes n k)
    simp only [level, pow_succ]
    omega

theorem visit_levels (nodes : List Node) (n : Int) : visit nodes 16 [(n, 0)] =
    (level nodes n 0).map (·, 0) ++ (level nodes n 1).map (·, 1) ++ (level nodes n 2).map (·, 2) ++ (level nodes n 3).map (·, 3) := by
  have l0 := level_le nodes n 0
  have l1 := level_le nodes n 1
  have l2 := level_le nodes n 2
  have l3 := level_le nodes n 3
  have s0 := visit_level nodes 0 (level nodes n 0) [] 15
  have s1 := visit_level nodes 1 (level nodes n 1) [] (15 - (level nodes n 1).length)
  have s2 := visit_level nodes 2 (level nodes n 2) [] (15 - (level nodes n 1).length - (level nodes n 2).length)
  have s3 := visit_level nodes 3 (level nodes n 3) [] (15 - (level nodes n 1).length - (level nodes n 2).length - (level nodes n 3).length)
  rw [show 15 - (level nodes n 1).length + (level nodes n 1).length = 15 by omega] at s1
  rw [show 15 - (level nodes n 1).length - (level nodes n 2).length + (level nodes n 2).length = 15 - (level nodes n 1).length by omega] at s2
  rw [show 15 - (level nodes n 1).length - (level nodes n 2).length - (level nodes n 3).length + (level nodes n 3).length =
    15 - (level nodes n 1).length - (level nodes n 2).length by omega] at s3
  simp only [List.map_nil, List.append_nil, List.nil_append, Nat.reduceLT, if_true, if_false, Nat.reduceAdd, lt_irrefl, zero_add] at s0 s1 s2 s3
  have e0 : (level nodes n 0).length = 1 := rfl
  rw [e0] at s0
  have e1 : (level nodes n 0).flatMap (below nodes) = level nodes n 1 := rfl
  have e2 : (level nodes n 1).flatMap (below nodes) = level nodes n 2 := rfl
  have e3 : (level nodes n 2).flatMap (below nodes) = level nodes n 3 := rfl
  rw [e1] at s0
  rw [e2] at s1
  rw [e3] at s2
  have s4 : ∀ k, visit nodes k [] = [] := by intro k; cases k <;> rfl
  rw [s4] at s3
  show visit nodes (15 + 1) ((level nodes n 0).map (·, 0)) = _
  rw [s0, s1, s2, s3]
  simp

/-- **C203**: if the world's nodes are a tree, the heights of all its nodes down to three steps below its head are printed, level by level,
from left to right; otherwise the check is undefined. -/
theorem heights_printed (b : Bsp K) (h : Int) (hh : b.heads[0]? = some h) (hn : 0 ≤ h) (k : Nat) (t : Tree b.nodes h k) :
    ∃ l, heights b = .ok l ∧
      l.map Prod.fst = (List.range 4).flatMap (fun i => (level b.nodes h i).map fun _ => i) ∧
      List.Forall₂ (fun n x => Tree b.nodes n x.2) ((List.range 4).flatMap (level b.nodes h)) l := by
  have trees : ∀ (i : Nat), ∀ n ∈ level b.nodes h i, 0 ≤ n ∧ ∃ x, Tree b.nodes n x := by
    intro i
    induction i with
    | zero => intro n hm; simp [level] at hm; subst hm; exact ⟨hn, k, t⟩
    | succ i ih =>
      intro n hm
      simp only [level, List.mem_flatMap] at hm
      obtain ⟨m, hm, hb⟩ := hm
      obtain ⟨h0, x, tx⟩ := ih m hm
      cases tx with
      | leaf _ hneg => omega
      | node _ d a c _ hd t0 t1 =>
        simp only [below, hd, List.mem_filter, List.mem_cons, List.not_mem_nil, or_false, decide_eq_true_eq] at hb
        obtain ⟨rfl | rfl, hpos⟩ := hb
        · exact ⟨hpos, a, t0⟩
        · exact ⟨hpos, c, t1⟩
  have fold : ∀ (L : List (Int × Nat)), (∀ nl ∈ L, 0 ≤ nl.1 ∧ ∃ x, Tree b.nodes nl.1 x) →
      ∃ l, L.foldr (fun nl acc => do
        let x ← height b.nodes (b.nodes.length + 1) nl.1
        let r ← acc
        .ok ((nl.2, x) :: r)) (.ok []) = Outcome.ok l ∧ l.map Prod.fst = L.map Prod.snd ∧
        List.Forall₂ (fun n x => Tree b.nodes n x.2) (L.map Prod.fst) l := by
    intro L
    induction L with
    | nil => intro _; exact ⟨[], rfl, rfl, .nil⟩
    | cons nl L ih =>
      intro hL
      obtain ⟨l, h1, h2, h3⟩ := ih fun x hx => hL x (by simp [hx])
      obtain ⟨h0, x, tx⟩ := hL nl (by simp)
      refine ⟨(nl.2, x) :: l, ?_, by simp [h2], .cons tx h3⟩
      simp only [List.foldr_cons, h1, (height_iff b.nodes nl.1 h0 x).2 tx, Outcome.ok_bind]
  obtain ⟨l, h1, h2, h3⟩ := fold (visit b.nodes 16 [(h, 0)]) (by
    intro nl hm
    rw [visit_levels] at hm
    simp only [List.mem_append, List.mem_map] at hm
    rcases hm with ((⟨n, hm, rfl⟩ | ⟨n, hm, rfl⟩) | ⟨n, hm, rfl⟩) | ⟨n, hm, rfl⟩
    · exact trees _ n hm
    · exact trees _ n hm
    · exact trees _ n hm
    · exact trees _ n hm)
  refine ⟨l, ?_, ?_, ?_⟩
  · simp only [heights, hh, if_neg (by omega : ¬ h < 0), (height_iff b.nodes h hn k).2 t, Outcome.ok_bind]
    exact h1
  · rw [h2, visit_levels]
    simp [List.range_succ, Function.comp_def]
  · rw [visit_levels] at h3
    simpa [List.range_succ, Function.comp_def] using h3

/-- **C203**: the check is defined if and only if its arithmetic does not overflow, the map has a model, and its nodes are a tree. -/
theorem check_defined (b : Bsp K) : check b ≠ .ub ↔ noOverflow b ∧ ∃ h k, b.heads[0]? = some h ∧ 0 ≤ h ∧ Tree b.nodes h k := by
  constructor
  · intro hne
    unfold check at hne
    by_cases ho : noOverflow b
    · rw [if_neg (by simpa using ho)] at hne
      refine ⟨ho, ?_⟩
      unfold heights at hne
      cases hh : b.heads[0]? with
      | none => rw [hh] at hne; exact absurd rfl hne
      | some h =>
        rw [hh] at hne
        simp only at hne
        by_cases hn : h < 0
        · rw [if_pos hn] at hne; exact absurd rfl hne
        · rw [if_neg hn] at hne
          cases hk : height b.nodes (b.nodes.length + 1) h with
          | ub => rw [hk] at hne; exact absurd rfl hne
          | error => exact absurd hk (height_not_error _ _ _)
          | ok k => exact ⟨h, k, rfl, by omega, (height_iff b.nodes h (by omega) k).1 hk⟩
    · rw [if_pos ho] at hne; exact absurd rfl hne
  · rintro ⟨ho, h, k, hh, hn, t⟩
    obtain ⟨l, hl, -⟩ := heights_printed b h hh hn k t
    unfold check
    rw [if_neg (by simpa using ho), hl]
    simp [Outcome.ok_bind]

/-- **C202**: what a check that ends has printed. -/
theorem check_prints (b : Bsp K) (r : Report) (h : check b = .ok r) : r.ws = warnings b ∧ heights b = .ok r.hs ∧
    r.visofs = ((b.leafs.map (·.visofs)).filter (· ≥ 0)).toFinset.card ∧
    r.styles.Pairwise (· < ·) ∧ ((∀ f ∈ b.faces, ∀ s ∈ f.styles, s < 256) → ∀ s, s ∈ r.styles ↔ ∃ f ∈ b.faces, s ∈ f.styles) := by
  unfold check at h
  split at h
  · cases h
  · obtain ⟨hs, h1, h⟩ := Outcome.bind_eq_ok.1 h
    cases h
    refine ⟨rfl, h1, (List.card_toFinset _).symm, ?_, ?_⟩
    · exact List.pairwise_lt_range.filter _
    · intro hst s
      simp only [List.mem_filter, List.mem_range, decide_eq_true_eq]
      exact ⟨And.right, fun hx => ⟨by obtain ⟨f, hf, hs⟩ := hx; exact hst f hf s hs, hx⟩⟩

/-! ### Planes -/

section
variable [Field K] [LinearOrder K]

theorem corner_ok (b : Bsp K) (f : Face) (j : Nat) (p : Vec K) : corner b (f.firstedge + j) = .ok p ↔ CornerAt b f j p := by
  unfold corner CornerAt
  by_cases h0 : f.firstedge + j < 0
  · rw [if_pos h0]
    constructor
    · intro h; cases h
    · rintro ⟨e, v, h, -⟩; omega
  rw [if_neg h0]
  cases hs : b.surfedges[(f.firstedge + j).toNat]? with
  | none => simp
  | some e =>
    by_cases he : e ≥ 0
    · simp only [if_pos he]
      cases hd : b.edges[e.toNat]? with
      | none => simp [he, hd]
      | some d =>
        obtain ⟨d1, d2⟩ := d
        simp only [Outcome.readAt]
        cases hv : b.vertexes[d1]? with
        | none => simp [he, hd, hv]
        | some q =>
          simp [he, hd, hv]
          omega
    · simp only [if_neg he]
      cases hd : b.edges[(-e).toNat]? with
      | none => simp [he, hd]
      | some d =>
        obtain ⟨d1, d2⟩ := d
        simp only [Outcome.readAt]
        cases hv : b.vertexes[d2]? with
        | none => simp [he, hd, hv]
        | some q =>
          simp [he, hd, hv]
          omega

theorem off_corners (b : Bsp K) (eps : K) (pl : Plane K) (f : Face) : ∀ (n j : Nat) (l : List Nat), offCorners b eps pl f.firstedge n j = .ok l →
    ∀ k, k ∈ l ↔ ∃ p, j ≤ k ∧ k < j + n ∧ CornerAt b f k p ∧ (pl.distTo p < -eps ∨ pl.distTo p > eps) := by
  intro n
  induction n with
  | zero => intro j l h k; cases h; simp; omega
  | succ n ih =>
    intro j l h k
    simp only [offCorners] at h
    obtain ⟨p, hp, h⟩ := Outcome.bind_eq_ok.1 h
    obtain ⟨rest, hr, h⟩ := Outcome.bind_eq_ok.1 h
    cases h
    have hc := (corner_ok b f j p).1 hp
    have ih := ih (j + 1) rest hr k
    have only : ∀ q, CornerAt b f j q → q = p := by
      intro q hq
      have := (corner_ok b f j q).2 hq
      rw [hp] at this
      cases this
      rfl
    constructor
    · intro hk
      split at hk
      · rename_i hoff
        rcases List.mem_cons.1 hk with rfl | hk
        · exact ⟨p, le_refl _, by omega, hc, hoff⟩
        · obtain ⟨q, h1, h2, h3⟩ := ih.1 hk
          exact ⟨q, by omega, by omega, h3⟩
      · obtain ⟨q, h1, h2, h3⟩ := ih.1 hk
        exact ⟨q, by omega, by omega, h3⟩
    · rintro ⟨q, h1, h2, h3, h4⟩
      by_cases hk : k = j
      · subst hk
        cases only q h3
        rw [if_pos h4]
        simp
      · have := ih.2 ⟨q, by omega, by omega, h3, h4⟩
        split
        · exact List.mem_cons_of_mem _ this
        · exact this

variable [IsStrictOrderedRing K]

theorem off_face (b : Bsp K) (eps : K) (f : Face) (l : List Nat) (h : offFace b eps f = .ok l) (j : Nat) :
    j ∈ l ↔ ∃ pl p, b.planes[f.planenum.toNat]? = some pl ∧ (j : Int) < f.numedges ∧ CornerAt b f j p ∧ |dot p pl.normal - pl.dist| > eps := by
  unfold offFace at h
  split at h
  · cases h
  split at h
  · cases h
  rename_i pl hpl
  split at h
  · cases h
  rw [off_corners b eps _ f _ _ l h j]
  constructor
  · rintro ⟨p, -, h2, h3, h4⟩
    refine ⟨pl, p, hpl, by omega, h3, ?_⟩
    rw [gt_iff_lt, lt_abs]
    split at h4
    · simp only [Plane.distTo, dot] at h4 ⊢
      rcases h4 with h4 | h4
      · left; linarith
      · right; linarith
    · simp only [Plane.distTo] at h4
      rcases h4 with h4 | h4
      · right; linarith
      · left; linarith
  · rintro ⟨pl', p, h1, h2, h3, h4⟩
    rw [hpl] at h1
    cases h1
    refine ⟨p, by omega, by omega, h3, ?_⟩
    rw [gt_iff_lt, lt_abs] at h4
    split
    · simp only [Plane.distTo, dot] at h4 ⊢
      rcases h4 with h4 | h4
      · left; linarith
      · right; linarith
    · simp only [Plane.distTo]
      rcases h4 with h4 | h4
      · right; linarith
      · left; linarith

/-- **C203**: a corner of a face is reported if and only if it is further from the plane of the face than the tolerance. -/
theorem planar_reports (b : Bsp K) (eps : K) (l : List (Nat × Nat)) (h : planar b eps 0 b.faces = .ok l) (i j : Nat) :
    (i, j) ∈ l ↔ ∃ f pl p, b.faces[i]? = some f ∧ b.planes[f.planenum.toNat]? = some pl ∧ (j : Int) < f.numedges ∧ CornerAt b f j p ∧
      |dot p pl.normal - pl.dist| > eps := by
  have main : ∀ (fs : List Face) (s : Nat) (l : List (Nat × Nat)), planar b eps s fs = .ok l →
      ((i, j) ∈ l ↔ ∃ k f pl p, i = s + k ∧ fs[k]? = some f ∧ b.planes[f.planenum.toNat]? = some pl ∧ (j : Int) < f.numedges ∧ CornerAt b f j p ∧
        |dot p pl.normal - pl.dist| > eps) := by
    intro fs
    induction fs with
    | nil => intro s l h; cases h; simp
    | cons f fs ih =>
      intro s l h
      simp only [planar] at h
      obtain ⟨js, h1, h⟩ := Outcome.bind_eq_ok.1 h
      obtain ⟨rest, h2, h⟩ := Outcome.bind_eq_ok.1 h
      cases h
      rw [List.mem_append, ih (s + 1) rest h2]
      have hf := off_face b eps f js h1 j
      constructor
      · rintro (hm | ⟨k, g, pl, p, rfl, hg⟩)
        · simp only [List.mem_map, Prod.mk.injEq] at hm
          obtain ⟨j', hj, rfl, rfl⟩ := hm
          obtain ⟨pl, p, hp⟩ := hf.1 hj
          exact ⟨0, f, pl, p, rfl, rfl, hp⟩
        · exact ⟨k + 1, g, pl, p, by omega, by simpa using hg⟩
      · rintro ⟨k, g, pl, p, hi, hg, hp⟩
        cases k with
        | zero =>
          simp at hg
          subst hg
          left
          simp only [List.mem_map, Prod.mk.injEq]
          exact ⟨j, hf.2 ⟨pl, p, hp⟩, by omega, rfl⟩
        | succ k => exact .inr ⟨k, g, pl, p, by omega, by simpa using hg, hp⟩
  rw [main b.faces 0 l h]
  constructor
  · rintro ⟨k, f, pl, p, hk, hp⟩
    obtain rfl : i = k := by omega
    exact ⟨f, pl, p, hp⟩
  · rintro ⟨f, pl, p, hp⟩
    exact ⟨i, f, pl, p, by omega, hp⟩

omit [IsStrictOrderedRing K] in
/-- **C203** is false of faces with a wrong plane or a wrong edge, which the check has just reported: it goes on with them. -/
theorem planar_crashes (b : Bsp K) (eps : K) (f : Face) (hf : f ∈ b.faces)
    (h : ¬ In f.planenum b.planes.length ∨ (0 < f.numedges ∧ ¬ In f.firstedge b.surfedges.length)) : planar b eps 0 b.faces = .ub := by
  have hub : offFace b eps f = .ub := by
    unfold offFace
    split
    · rfl
    split
    · rfl
    rename_i pl hpl
    split
    · rfl
    rcases h with h | ⟨h1, h2⟩
    · obtain ⟨hl, -⟩ := List.getElem?_eq_some_iff.1 hpl
      exact absurd ⟨by omega, by omega⟩ h
    · obtain ⟨n, hn⟩ : ∃ n, f.numedges.toNat = n + 1 := ⟨f.numedges.toNat - 1, by omega⟩
      rw [hn, offCorners]
      have : corner b (f.firstedge + (0 : Nat)) = .ub := by
        unfold corner
        split
        · rfl
        · rw [List.getElem?_eq_none]
          unfold In at h2
          simp only [Nat.cast_zero, add_zero] at *
          omega
      rw [this]
      rfl
  have noerr1 : ∀ k, corner b k ≠ .error := by
    intro k
    unfold corner Outcome.readAt
    repeat' split
    all_goals simp
  have noerr2 : ∀ (pl : Plane K) (a : Int) (n j : Nat), offCorners b eps pl a n j ≠ .error := by
    intro pl a n
    induction n with
    | zero => intro j; simp [offCorners]
    | succ n ih =>
      intro j h
      simp only [offCorners] at h
      rcases Outcome.bind_eq_error.1 h with h | ⟨p, -, h⟩
      · exact noerr1 _ h
      · rcases Outcome.bind_eq_error.1 h with h | ⟨q, -, h⟩
        · exact ih _ h
        · cases h
  have noerr : ∀ g, offFace b eps g ≠ .error := by
    intro g
    unfold offFace
    split
    · simp
    split
    · simp
    split
    · simp
    exact noerr2 _ _ _ _
  have main : ∀ (fs : List Face) (s : Nat), planar b eps s fs ≠ .error ∧ (f ∈ fs → planar b eps s fs = .ub) := by
    intro fs
    induction fs with
    | nil => intro s; simp [planar]
    | cons g fs ih =>
      intro s
      constructor
      · intro h
        simp only [planar] at h
        rcases Outcome.bind_eq_error.1 h with h | ⟨p, -, h⟩
        · exact noerr _ h
        · rcases Outcome.bind_eq_error.1 h with h | ⟨q, -, h⟩
          · exact (ih _).1 h
          · cases h
      · intro hm
        simp only [planar]
        rcases List.mem_cons.1 hm with rfl | hm
        · rw [hub]; rfl
        · rw [(ih (s + 1)).2 hm]
          cases hg : offFace b eps g with
          | ok => rfl
          | error => exact absurd hg (noerr g)
          | ub => rfl
  exact (main b.faces 0).2 hf

end

/-! ### Examples -/

/-- A map of one face, a triangle on the floor, a node with two leafs, and a clip node. -/
def exBsp : Bsp ℚ :=
  ⟨[⟨0, false, 0, 3, 0, [0, 255, 255, 255], 0⟩], 1, [⟨⟨0, 0, 1⟩, 0⟩], 4, [1, 2, 3], [(0, 0), (0, 1), (1, 2), (2, 0)],
    [⟨0, 0, 0⟩, ⟨0, 8, 0⟩, ⟨8, 0, 0⟩], [0], [⟨0, 0, 0⟩, ⟨0, 0, 1⟩], 1, [⟨0, -1, -2⟩], [⟨0, -1, -2⟩], [0]⟩

theorem exBsp_loaded : Loaded exBsp := by
  refine ⟨?_, ?_, ?_⟩
  · intro f hf
    simp [exBsp] at hf
    subst hf
    decide
  · intro l hl
    simp [exBsp] at hl
    rcases hl with rfl | rfl <;> decide
  · exact ⟨by decide, by decide, by decide, by decide, by decide⟩

-- a sound map: no warnings, one height, one style and 255, nothing off its plane
example : check exBsp = .ok ⟨[], [(0, 1)], 1, [0, 255]⟩ ∧ planar exBsp (1 / 100) 0 exBsp.faces = .ok [] := by decide +kernel

example : noOverflow exBsp ∧ ∃ h k, exBsp.heads[0]? = some h ∧ 0 ≤ h ∧ Tree exBsp.nodes h k :=
  (check_defined exBsp).1 (by decide +kernel)

/-- **C202** is false of vertices: an edge to the vertex just past the end is not reported, and neither is a node or clip node whose plane
does not exist. -/
theorem vertex_missed : ∃ b : Bsp ℚ, Loaded b ∧ noOverflow b ∧ warnings b = [] ∧ (∃ e ∈ b.edges, b.vertexes.length ≤ e.1) ∧
    (∃ n ∈ b.nodes, ¬ In n.planenum b.planes.length) ∧ ∃ n ∈ b.clipnodes, ¬ In n.planenum b.planes.length :=
  ⟨{ exBsp with edges := [(3, 0), (0, 1), (1, 2), (2, 0)], nodes := [⟨7, -1, -2⟩], clipnodes := [⟨-1, -1, -2⟩] },
    ⟨exBsp_loaded.faces, exBsp_loaded.leafs, exBsp_loaded.sizes⟩, by decide +kernel, by decide +kernel,
    ⟨_, List.mem_cons_self, by decide⟩, ⟨_, List.mem_cons_self, by unfold In; decide⟩, ⟨_, List.mem_cons_self, by unfold In; decide⟩⟩

/-- **C203** is false of maps with a wrong child of a node, which the check has just reported: it goes on with it. -/
theorem check_crashes : ∃ b : Bsp ℚ, Loaded b ∧ noOverflow b ∧ warnings b = [.childNode 0 0] ∧ check b = .ub :=
  ⟨{ exBsp with nodes := [⟨0, 1, -2⟩] }, ⟨exBsp_loaded.faces, exBsp_loaded.leafs, exBsp_loaded.sizes⟩, by decide +kernel, by decide +kernel,
    by decide +kernel⟩

-- and of one that is its own child, which is not reported
example : ∃ b : Bsp ℚ, noOverflow b ∧ warnings b = [] ∧ check b = .ub :=
  ⟨{ exBsp with nodes := [⟨0, 0, -2⟩] }, by decide +kernel, by decide +kernel, by decide +kernel⟩

-- a corner off its plane
example : planar { exBsp with vertexes := [⟨0, 0, 0⟩, ⟨0, 8, 1⟩, ⟨8, 0, 0⟩] } (1 / 100) 0 exBsp.faces = .ok [(0, 1)] := by decide +kernel

end Verif.BspUtil
