import Verif.Tree.FindFaceSpec
import Verif.Tree.WalkProps

/-!
C211: the faces and the node at a point.
-/

namespace Verif.Tree

open Geom Tree.Spec

variable {K : Type} [Field K] [LinearOrder K]

theorem reach_leaf {dplanes : List (DPlane K)} {dnodes : List DNode} {p : Vec K} {fr bk : K → Prop} {n : Int} {m : Nat}
    (hn : n < 0) : ¬ Reach dplanes dnodes p fr bk n m := by
  intro h
  cases h <;> omega

theorem reach_node_iff {dplanes : List (DPlane K)} {dnodes : List DNode} {p : Vec K} {fr bk : K → Prop} {n : Int}
    {nd : DNode} {pl : DPlane K} {m : Nat} (hn : 0 ≤ n) (hnd : dnodes[n.toNat]? = some nd)
    (hpl : dplanes[nd.planenum]? = some pl) : Reach dplanes dnodes p fr bk n m ↔ m = n.toNat ∨
      (fr (pl.plane.distTo p) ∧ Reach dplanes dnodes p fr bk nd.c0 m) ∨
      (bk (pl.plane.distTo p) ∧ Reach dplanes dnodes p fr bk nd.c1 m) := by
  constructor
  · intro h
    cases h with
    | here => exact Or.inl rfl
    | front _ nd' pl' _ h0 h2 h3 h4 h5 =>
      rw [hnd] at h2; cases h2
      rw [hpl] at h3; cases h3
      exact Or.inr (Or.inl ⟨h4, h5⟩)
    | back _ nd' pl' _ h0 h2 h3 h4 h5 =>
      rw [hnd] at h2; cases h2
      rw [hpl] at h3; cases h3
      exact Or.inr (Or.inr ⟨h4, h5⟩)
  · rintro (rfl | ⟨h1, h2⟩ | ⟨h1, h2⟩)
    · exact .here n hn
    · exact .front n nd pl m hn hnd hpl h1 h2
    · exact .back n nd pl m hn hnd hpl h1 h2

theorem pointInside_iff (l : List (Plane K)) (p : Vec K) : pointInside l p = true ↔ ∀ e ∈ l, 0 ≤ e.distTo p := by
  induction l with
  | nil => simp [pointInside]
  | cons e l ih =>
    rw [pointInside]
    split_ifs with h
    · simp [h]
    · simp [ih, not_lt.mp h]

theorem edgePlane_dist (n a b p : Vec K) : (edgePlane n a b).distTo p =
    (p.x - a.x) * ((b.y - a.y) * n.z - (b.z - a.z) * n.y) + (p.y - a.y) * ((b.z - a.z) * n.x - (b.x - a.x) * n.z) +
      (p.z - a.z) * ((b.x - a.x) * n.y - (b.y - a.y) * n.x) := by
  simp only [edgePlane, Plane.distTo, dot, crossP, diff]
  ring

theorem mod_next {i n : Nat} (h : i < n) : (i + 1) % n = if i + 1 = n then 0 else i + 1 := by
  split_ifs with e
  · rw [e, Nat.mod_self]
  · exact Nat.mod_eq_of_lt (by omega)

theorem mem_edgePlanes (f : DFace K) (e : Plane K) :
    e ∈ edgePlanes f ↔ ∃ a b, Edge f.corners a b ∧ e = edgePlane f.plane.normal a b := by
  unfold edgePlanes
  rw [List.mem_filterMap]
  constructor
  · rintro ⟨i, hi, h⟩
    rw [mod_next (List.mem_range.mp hi)] at h
    rcases h0 : f.corners[i]? with _ | a
    · simp [h0] at h
    · rcases h1 : f.corners[if i + 1 = f.corners.length then 0 else i + 1]? with _ | b
      · simp [h0, h1] at h
      · simp only [h0, h1, Option.some.injEq] at h
        exact ⟨a, b, ⟨i, h0, h1⟩, h.symm⟩
  · rintro ⟨a, b, ⟨i, h0, h1⟩, rfl⟩
    have hi : i < f.corners.length := by
      rw [List.getElem?_eq_some_iff] at h0
      exact h0.1
    refine ⟨i, List.mem_range.mpr hi, ?_⟩
    rw [mod_next hi, h0, h1]

/-- The test of a face. -/
theorem faceMatches_iff (p want : Vec K) (f : DFace K) : faceMatches p want f = true ↔
    (want = ⟨0, 0, 0⟩ ∨ 0 ≤ dot f.plane.normal want) ∧ Within f p := by
  have hin : pointInside (edgePlanes f) p = true ↔ Within f p := by
    rw [pointInside_iff]
    constructor
    · intro h a b hab
      rw [← edgePlane_dist]
      exact h _ ((mem_edgePlanes f _).mpr ⟨a, b, hab, rfl⟩)
    · intro h e he
      obtain ⟨a, b, hab, rfl⟩ := (mem_edgePlanes f e).mp he
      rw [edgePlane_dist]
      exact h a b hab
  unfold faceMatches
  split_ifs with h
  · simp only [Bool.false_eq_true, false_iff]
    rintro ⟨h1 | h1, -⟩
    · exact h.1 h1
    · exact absurd h.2 (not_lt.mpr h1)
  · rw [hin]
    constructor
    · intro h'
      refine ⟨?_, h'⟩
      by_cases hw : want = ⟨0, 0, 0⟩
      · exact Or.inl hw
      · exact Or.inr (not_lt.mp fun hc => h ⟨hw, hc⟩)
    · exact And.right

theorem nodeFaces_spec (dfaces : List (DFace K)) (p want : Vec K) : ∀ (n : Nat) (first : Int),
    (0 < n → 0 ≤ first ∧ first + n ≤ dfaces.length) → ∃ l, nodeFaces dfaces p want n first = .ok l ∧
      ∀ k, k ∈ l ↔ ∃ f, first ≤ k ∧ (k : Int) < first + n ∧ dfaces[k]? = some f ∧ faceMatches p want f = true := by
  intro n
  induction n with
  | zero =>
    intro first _
    refine ⟨[], rfl, ?_⟩
    intro k
    simp only [List.not_mem_nil, false_iff, not_exists, not_and]
    intro f h1 h2
    omega
  | succ n ih =>
    intro first h
    obtain ⟨h0, h1⟩ := h (by omega)
    obtain ⟨l, e, hl⟩ := ih (first + 1) (fun _ => ⟨by omega, by push_cast at h1 ⊢; omega⟩)
    have hlt : first.toNat < dfaces.length := by push_cast at h1; omega
    rw [nodeFaces, if_neg (by omega), List.getElem?_eq_getElem hlt]
    dsimp only
    rw [e, Outcome.ok_bind]
    refine ⟨_, rfl, ?_⟩
    intro k
    have hrest : k ∈ l ↔ (k ≠ first.toNat) ∧ ∃ f, first ≤ k ∧ (k : Int) < first + ((n + 1 : Nat) : Int) ∧ dfaces[k]? = some f ∧
        faceMatches p want f = true := by
      rw [hl k]
      constructor
      · rintro ⟨f, a, b, c, d⟩
        exact ⟨by omega, f, by omega, by push_cast; omega, c, d⟩
      · rintro ⟨hne, f, a, b, c, d⟩
        exact ⟨f, by omega, by push_cast at b; omega, c, d⟩
    by_cases hk : k = first.toNat
    · have hnot : k ∉ l := fun hm => (hrest.mp hm).1 hk
      split_ifs with hm
      · rw [List.mem_cons]
        refine ⟨fun _ => ⟨_, by omega, by push_cast; omega, by rw [hk]; exact List.getElem?_eq_getElem hlt, hm⟩, fun _ => Or.inl hk⟩
      · refine ⟨fun h => absurd h hnot, ?_⟩
        rintro ⟨f, -, -, c, d⟩
        rw [hk, List.getElem?_eq_getElem hlt] at c
        cases c
        exact absurd d hm
    · have : (k ∈ if faceMatches p want dfaces[first.toNat] = true then first.toNat :: l else l) ↔ k ∈ l := by
        split_ifs <;> simp [hk]
      rw [this, hrest]
      exact ⟨And.right, fun h => ⟨hk, h⟩⟩

variable [IsStrictOrderedRing K]

/-- A face at a point: it is one of a node whose plane is at most the tolerance away and to which the point leads, it does not
look away from the wanted normal, and the point is within it. -/
def AtPoint (tol : K) (dplanes : List (DPlane K)) (dnodes : List DNode) (dfaces : List (DFace K)) (p want : Vec K) (n : Int)
    (k : Nat) : Prop :=
  ∃ m nd pl f, Reach dplanes dnodes p (-tol ≤ ·) (· ≤ tol) n m ∧ dnodes[m]? = some nd ∧ dplanes[nd.planenum]? = some pl ∧
    -tol ≤ pl.plane.distTo p ∧ pl.plane.distTo p ≤ tol ∧ Owns nd k ∧ dfaces[k]? = some f ∧
    (want = ⟨0, 0, 0⟩ ∨ 0 ≤ dot f.plane.normal want) ∧ Within f p

/-- The search ends and reports exactly the faces at the point. -/
theorem faces_at_point {dplanes : List (DPlane K)} {dnodes : List DNode} {dleafs : List DLeaf} {dfaces : List (DFace K)} {n : Int}
    (ht : ∀ nd ∈ dnodes, ∀ d, dplanes[nd.planenum]? = some d → TypeOk d) (h : Sound dplanes dnodes dleafs n)
    (hf : FacesThere dnodes dfaces) {tol : K} (htol : 0 ≤ tol) (p want : Vec K) :
    ∃ l, (∃ N, ∀ fuel ≥ N, findFaces tol dplanes dnodes dfaces p want fuel n = some (.ok l)) ∧
      ∀ k, k ∈ l ↔ AtPoint tol dplanes dnodes dfaces p want n k := by
  induction h with
  | leaf n hn hk =>
    refine ⟨[], ⟨1, ?_⟩, ?_⟩
    · intro fuel hf
      obtain ⟨m, rfl⟩ : ∃ m, fuel = m + 1 := ⟨fuel - 1, by omega⟩
      rw [findFaces, if_pos hn]
    · intro k
      simp only [List.not_mem_nil, false_iff]
      rintro ⟨m, nd, pl, f, hr, -⟩
      exact reach_leaf hn hr
  | node n nd hn hnd hpl _ _ ih0 ih1 =>
    have hpl' := List.getElem?_eq_getElem hpl
    have hfast := distFast_of_typeOk (ht nd (List.mem_of_getElem? hnd) _ hpl') p
    obtain ⟨l0, ⟨N0, hN0⟩, hr0⟩ := ih0
    obtain ⟨l1, ⟨N1, hN1⟩, hr1⟩ := ih1
    have hsplit : ∀ k, AtPoint tol dplanes dnodes dfaces p want n k ↔
        ((-tol ≤ (dplanes[nd.planenum]).plane.distTo p ∧ (dplanes[nd.planenum]).plane.distTo p ≤ tol) ∧ ∃ f, Owns nd k ∧
          dfaces[k]? = some f ∧ faceMatches p want f = true) ∨
        (-tol ≤ (dplanes[nd.planenum]).plane.distTo p ∧ AtPoint tol dplanes dnodes dfaces p want nd.c0 k) ∨
        ((dplanes[nd.planenum]).plane.distTo p ≤ tol ∧ AtPoint tol dplanes dnodes dfaces p want nd.c1 k) := by
      intro k
      constructor
      · rintro ⟨m, nd', pl', f, hr, h1, h2, h3, h4, h5, h6, h7⟩
        rcases (reach_node_iff hn hnd hpl').mp hr with rfl | ⟨ha, hb⟩ | ⟨ha, hb⟩
        · rw [hnd] at h1; cases h1
          rw [hpl'] at h2; cases h2
          exact Or.inl ⟨⟨h3, h4⟩, f, h5, h6, (faceMatches_iff p want f).mpr h7⟩
        · exact Or.inr (Or.inl ⟨ha, m, nd', pl', f, hb, h1, h2, h3, h4, h5, h6, h7⟩)
        · exact Or.inr (Or.inr ⟨ha, m, nd', pl', f, hb, h1, h2, h3, h4, h5, h6, h7⟩)
      · rintro (⟨⟨h3, h4⟩, f, h5, h6, h7⟩ | ⟨ha, m, nd', pl', f, hb, h⟩ | ⟨ha, m, nd', pl', f, hb, h⟩)
        · exact ⟨n.toNat, nd, _, f, .here n hn, hnd, hpl', h3, h4, h5, h6, (faceMatches_iff p want f).mp h7⟩
        · exact ⟨m, nd', pl', f, .front n nd _ m hn hnd hpl' ha hb, h⟩
        · exact ⟨m, nd', pl', f, .back n nd _ m hn hnd hpl' ha hb, h⟩
    by_cases hd : (dplanes[nd.planenum]).plane.distTo p > tol
    · refine ⟨l0, ⟨N0 + 1, ?_⟩, ?_⟩
      · intro fuel hf
        obtain ⟨m, rfl⟩ : ∃ m, fuel = m + 1 := ⟨fuel - 1, by omega⟩
        rw [findFaces, if_neg (by omega), hnd]
        dsimp only
        rw [hpl']
        dsimp only
        rw [if_pos (by rw [hfast]; exact hd)]
        exact hN0 m (by omega)
      · intro k
        rw [hsplit, hr0]
        constructor
        · intro h; exact Or.inr (Or.inl ⟨by linarith, h⟩)
        · rintro (⟨⟨-, h⟩, -⟩ | ⟨-, h⟩ | ⟨h, -⟩)
          · exact absurd h (not_le.mpr hd)
          · exact h
          · exact absurd h (not_le.mpr hd)
    · by_cases hd2 : (dplanes[nd.planenum]).plane.distTo p < -tol
      · refine ⟨l1, ⟨N1 + 1, ?_⟩, ?_⟩
        · intro fuel hf
          obtain ⟨m, rfl⟩ : ∃ m, fuel = m + 1 := ⟨fuel - 1, by omega⟩
          rw [findFaces, if_neg (by omega), hnd]
          dsimp only
          rw [hpl']
          dsimp only
          rw [if_neg (by rw [hfast]; exact hd), if_pos (by rw [hfast]; exact hd2)]
          exact hN1 m (by omega)
        · intro k
          rw [hsplit, hr1]
          constructor
          · intro h; exact Or.inr (Or.inr ⟨by linarith, h⟩)
          · rintro (⟨⟨h, -⟩, -⟩ | ⟨h, -⟩ | ⟨-, h⟩)
            · exact absurd h (not_le.mpr hd2)
            · exact absurd h (not_le.mpr hd2)
            · exact h
      · obtain ⟨l, hl, hlm⟩ := nodeFaces_spec dfaces p want nd.numfaces.toNat nd.firstface (by
          intro hpos
          obtain ⟨ha, hb⟩ := hf nd (List.mem_of_getElem? hnd) (by omega)
          exact ⟨ha, by omega⟩)
        refine ⟨l ++ l0 ++ l1, ⟨N0 + N1 + 1, ?_⟩, ?_⟩
        · intro fuel hf
          obtain ⟨m, rfl⟩ : ∃ m, fuel = m + 1 := ⟨fuel - 1, by omega⟩
          rw [findFaces, if_neg (by omega), hnd]
          dsimp only
          rw [hpl']
          dsimp only
          rw [if_neg (by rw [hfast]; exact hd), if_neg (by rw [hfast]; exact hd2), hl]
          dsimp only
          rw [hN0 m (by omega)]
          dsimp only
          rw [hN1 m (by omega)]
        · intro k
          rw [hsplit, List.mem_append, List.mem_append, hlm, hr0, hr1]
          constructor
          · rintro ((⟨f, h1, h2, h3, h4⟩ | h) | h)
            · exact Or.inl ⟨⟨not_lt.mp hd2, not_lt.mp hd⟩, f, ⟨h1, by omega⟩, h3, h4⟩
            · exact Or.inr (Or.inl ⟨not_lt.mp hd2, h⟩)
            · exact Or.inr (Or.inr ⟨not_lt.mp hd, h⟩)
          · rintro (⟨-, f, ⟨h1, h2⟩, h3, h4⟩ | ⟨-, h⟩ | ⟨-, h⟩)
            · exact Or.inl (Or.inl ⟨f, h1, by omega, h3, h4⟩)
            · exact Or.inl (Or.inr h)
            · exact Or.inr h

/-- A point at most the tolerance away from another one is at most the tolerance further from a plane. -/
theorem near_dist {pl : Plane K} (hu : dot pl.normal pl.normal = 1) {p q : Vec K} {tol : K} (htol : 0 ≤ tol)
    (h : dot (diff p q) (diff p q) ≤ tol ^ 2) :
    pl.distTo q - tol ≤ pl.distTo p ∧ pl.distTo p ≤ pl.distTo q + tol := by
  have hd : pl.distTo p - pl.distTo q = dot (diff p q) pl.normal := by
    simp only [Plane.distTo, dot, diff]; ring
  have hcs : (dot (diff p q) pl.normal) ^ 2 ≤ dot (diff p q) (diff p q) * dot pl.normal pl.normal := by
    simp only [dot]
    generalize (diff p q).x = a, (diff p q).y = b, (diff p q).z = c, pl.normal.x = d, pl.normal.y = e, pl.normal.z = f
    nlinarith [sq_nonneg (a * e - b * d), sq_nonneg (a * f - c * d), sq_nonneg (b * f - c * e)]
  rw [hu, mul_one] at hcs
  have := abs_le_of_sq_le_sq' (le_trans hcs h) htol
  constructor <;> linarith [this.1, this.2]

/-- A node to which a point leads is one to which every point close to it leads. -/
theorem reach_near {dplanes : List (DPlane K)} {dnodes : List DNode} (hu : ∀ d ∈ dplanes, dot d.plane.normal d.plane.normal = 1)
    {p q : Vec K} {tol : K} (htol : 0 ≤ tol) (h : dot (diff p q) (diff p q) ≤ tol ^ 2) {n : Int} {m : Nat}
    (hr : Reach dplanes dnodes q (0 ≤ ·) (· ≤ 0) n m) : Reach dplanes dnodes p (-tol ≤ ·) (· ≤ tol) n m := by
  induction hr with
  | here n hn => exact .here n hn
  | front n nd pl m h0 h1 h2 h3 _ ih =>
    have := near_dist (hu pl (List.mem_of_getElem? h2)) htol h
    exact .front n nd pl m h0 h1 h2 (by linarith [this.1]) ih
  | back n nd pl m h0 h1 h2 h3 _ ih =>
    have := near_dist (hu pl (List.mem_of_getElem? h2)) htol h
    exact .back n nd pl m h0 h1 h2 (by linarith [this.2]) ih

/-- Every point of a convex face, also one above or below it, is within it. -/
theorem mean_within {f : DFace K} (hc : ∀ v ∈ f.corners, Within f v) {q : Vec K} (hq : Mean f.corners q) (t : K) :
    Within f ⟨q.x + t * f.plane.normal.x, q.y + t * f.plane.normal.y, q.z + t * f.plane.normal.z⟩ := by
  have h0 : Within f q := by
    induction hq with
    | corner v hv => exact hc v hv
    | mix p q s h1 h2 _ _ ih1 ih2 =>
      intro a b hab
      have e1 := mul_nonneg (sub_nonneg.mpr h2) (ih1 a b hab)
      have e2 := mul_nonneg h1 (ih2 a b hab)
      have := add_nonneg e1 e2
      refine le_of_le_of_eq this ?_
      ring
  intro a b hab
  refine le_of_le_of_eq (h0 a b hab) ?_
  ring

/-- Every point of a convex face, and every point at most the tolerance above or below one, is found to be at the face, if the face
is one of a node whose plane it lies in and to which its points lead. -/
theorem point_of_face {dplanes : List (DPlane K)} {dnodes : List DNode} {dfaces : List (DFace K)}
    (hu : ∀ d ∈ dplanes, dot d.plane.normal d.plane.normal = 1) {tol : K} (htol : 0 ≤ tol) {n : Int} {m k : Nat} {nd : DNode}
    {pl : DPlane K} {f : DFace K} (hnd : dnodes[m]? = some nd) (hpl : dplanes[nd.planenum]? = some pl) (ho : Owns nd k)
    (hf : dfaces[k]? = some f) (hfu : dot f.plane.normal f.plane.normal = 1) (hc : ∀ v ∈ f.corners, Within f v)
    {q : Vec K} (hq : Mean f.corners q) (hr : Reach dplanes dnodes q (0 ≤ ·) (· ≤ 0) n m) (hon : pl.plane.distTo q = 0) {t : K}
    (ht : |t| ≤ tol) {want : Vec K} (hw : want = ⟨0, 0, 0⟩ ∨ 0 ≤ dot f.plane.normal want) :
    AtPoint tol dplanes dnodes dfaces
      ⟨q.x + t * f.plane.normal.x, q.y + t * f.plane.normal.y, q.z + t * f.plane.normal.z⟩ want n k := by
  have hnear : dot (diff (⟨q.x + t * f.plane.normal.x, q.y + t * f.plane.normal.y, q.z + t * f.plane.normal.z⟩ : Vec K) q)
      (diff ⟨q.x + t * f.plane.normal.x, q.y + t * f.plane.normal.y, q.z + t * f.plane.normal.z⟩ q) ≤ tol ^ 2 := by
    have e : dot (diff (⟨q.x + t * f.plane.normal.x, q.y + t * f.plane.normal.y, q.z + t * f.plane.normal.z⟩ : Vec K) q)
      (diff ⟨q.x + t * f.plane.normal.x, q.y + t * f.plane.normal.y, q.z + t * f.plane.normal.z⟩ q) =
        t ^ 2 * dot f.plane.normal f.plane.normal := by
      simp only [dot, diff]; ring
    rw [e, hfu, mul_one]
    exact sq_le_sq' (by linarith [(abs_le.mp ht).1]) (abs_le.mp ht).2
  have hd := near_dist (hu pl (List.mem_of_getElem? hpl)) htol hnear
  rw [hon] at hd
  exact ⟨m, nd, pl, f, reach_near hu htol hnear hr, hnd, hpl, by linarith [hd.1], by linarith [hd.2], ho, hf, hw,
    mean_within hc hq t⟩

/-- The one face that is returned is at the point, and there is none only if no face is. -/
theorem first_face {l : List Nat} {P : Nat → Prop} (h : ∀ k, k ∈ l ↔ P k) :
    (∀ k, firstFace l = some k → P k) ∧ (firstFace l = none ↔ ∀ k, ¬ P k) := by
  cases l with
  | nil => simpa [firstFace] using h
  | cons a l =>
    refine ⟨?_, ?_⟩
    · intro k hk
      simp only [firstFace, List.head?_cons, Option.some.injEq] at hk
      exact (h k).mp (by simp [hk])
    · simp only [firstFace, List.head?_cons, reduceCtorEq, false_iff, not_forall, not_not]
      exact ⟨a, (h a).mp (by simp)⟩

/-- A node at a point: one to which the point leads, at most the tolerance away, with the wanted normal, up to its sign. -/
def NodeAt (tol eps : K) (dplanes : List (DPlane K)) (dnodes : List DNode) (p want : Vec K) (n : Int) (m : Nat) : Prop :=
  ∃ nd pl, Reach dplanes dnodes p (-tol ≤ ·) (· ≤ tol) n m ∧ dnodes[m]? = some nd ∧ dplanes[nd.planenum]? = some pl ∧
    -tol ≤ pl.plane.distTo p ∧ pl.plane.distTo p ≤ tol ∧ |1 - (|dot pl.plane.normal want|)| ≤ eps

/-- The search for a node ends, with a node at the point if there is one. -/
theorem node_at_point {dplanes : List (DPlane K)} {dnodes : List DNode} {dleafs : List DLeaf} {n : Int}
    (ht : ∀ nd ∈ dnodes, ∀ d, dplanes[nd.planenum]? = some d → TypeOk d) (h : Sound dplanes dnodes dleafs n)
    {tol : K} (htol : 0 ≤ tol) (eps : K) (p want : Vec K) :
    ∃ r, (∃ N, ∀ fuel ≥ N, findNode tol eps dplanes dnodes p want fuel n = some (.ok r)) ∧
      (∀ m, r = some m → NodeAt tol eps dplanes dnodes p want n m) ∧
      (r = none ↔ ∀ m, ¬ NodeAt tol eps dplanes dnodes p want n m) := by
  induction h with
  | leaf n hn hk =>
    refine ⟨none, ⟨1, ?_⟩, by simp, ?_⟩
    · intro fuel hf
      obtain ⟨m, rfl⟩ : ∃ m, fuel = m + 1 := ⟨fuel - 1, by omega⟩
      rw [findNode, if_pos hn]
    · simp only [true_iff]
      rintro m ⟨nd, pl, hr, -⟩
      exact reach_leaf hn hr
  | node n nd hn hnd hpl _ _ ih0 ih1 =>
    have hpl' := List.getElem?_eq_getElem hpl
    have hfast := distFast_of_typeOk (ht nd (List.mem_of_getElem? hnd) _ hpl') p
    obtain ⟨r0, ⟨N0, hN0⟩, hs0, hr0⟩ := ih0
    obtain ⟨r1, ⟨N1, hN1⟩, hs1, hr1⟩ := ih1
    have hsplit : ∀ m, NodeAt tol eps dplanes dnodes p want n m ↔
        ((-tol ≤ (dplanes[nd.planenum]).plane.distTo p ∧ (dplanes[nd.planenum]).plane.distTo p ≤ tol) ∧ m = n.toNat ∧
          normalMatches eps (dplanes[nd.planenum]).plane.normal want = true) ∨
        (-tol ≤ (dplanes[nd.planenum]).plane.distTo p ∧ NodeAt tol eps dplanes dnodes p want nd.c0 m) ∨
        ((dplanes[nd.planenum]).plane.distTo p ≤ tol ∧ NodeAt tol eps dplanes dnodes p want nd.c1 m) := by
      intro m
      constructor
      · rintro ⟨nd', pl', hr, h1, h2, h3, h4, h5⟩
        rcases (reach_node_iff hn hnd hpl').mp hr with rfl | ⟨ha, hb⟩ | ⟨ha, hb⟩
        · rw [hnd] at h1; cases h1
          rw [hpl'] at h2; cases h2
          exact Or.inl ⟨⟨h3, h4⟩, rfl, by simpa [normalMatches] using h5⟩
        · exact Or.inr (Or.inl ⟨ha, nd', pl', hb, h1, h2, h3, h4, h5⟩)
        · exact Or.inr (Or.inr ⟨ha, nd', pl', hb, h1, h2, h3, h4, h5⟩)
      · rintro (⟨⟨h3, h4⟩, rfl, h5⟩ | ⟨ha, nd', pl', hb, h⟩ | ⟨ha, nd', pl', hb, h⟩)
        · exact ⟨nd, _, .here n hn, hnd, hpl', h3, h4, by simpa [normalMatches] using h5⟩
        · exact ⟨nd', pl', .front n nd _ m hn hnd hpl' ha hb, h⟩
        · exact ⟨nd', pl', .back n nd _ m hn hnd hpl' ha hb, h⟩
    have step : ∀ m, findNode tol eps dplanes dnodes p want (m + 1) n =
        if (dplanes[nd.planenum]).plane.distTo p > tol then findNode tol eps dplanes dnodes p want m nd.c0
        else if (dplanes[nd.planenum]).plane.distTo p < -tol then findNode tol eps dplanes dnodes p want m nd.c1
        else if normalMatches eps (dplanes[nd.planenum]).plane.normal want then some (.ok (some n.toNat))
        else
          (match findNode tol eps dplanes dnodes p want m nd.c0 with
          | some (.ok none) => findNode tol eps dplanes dnodes p want m nd.c1
          | r => r) := by
      intro m
      rw [findNode, if_neg (by omega), hnd]
      dsimp only
      rw [hpl']
      dsimp only
      rw [hfast]
      split_ifs
      · rfl
      · rfl
      · rfl
      · rcases findNode tol eps dplanes dnodes p want m nd.c0 with _ | (_ | _) | _ | _ <;> rfl
    by_cases hd : (dplanes[nd.planenum]).plane.distTo p > tol
    · have hiff : ∀ m, NodeAt tol eps dplanes dnodes p want n m ↔ NodeAt tol eps dplanes dnodes p want nd.c0 m := by
        intro m
        rw [hsplit]
        constructor
        · rintro (⟨⟨-, h⟩, -⟩ | ⟨-, h⟩ | ⟨h, -⟩)
          · exact absurd h (not_le.mpr hd)
          · exact h
          · exact absurd h (not_le.mpr hd)
        · intro h; exact Or.inr (Or.inl ⟨by linarith, h⟩)
      refine ⟨r0, ⟨N0 + 1, ?_⟩, ?_, ?_⟩
      · intro fuel hf
        obtain ⟨m, rfl⟩ : ∃ m, fuel = m + 1 := ⟨fuel - 1, by omega⟩
        rw [step, if_pos hd]
        exact hN0 m (by omega)
      · intro m hm; exact (hiff m).mpr (hs0 m hm)
      · rw [hr0]; exact forall_congr' fun m => not_congr (hiff m).symm
    · by_cases hd2 : (dplanes[nd.planenum]).plane.distTo p < -tol
      · have hiff : ∀ m, NodeAt tol eps dplanes dnodes p want n m ↔ NodeAt tol eps dplanes dnodes p want nd.c1 m := by
          intro m
          rw [hsplit]
          constructor
          · rintro (⟨⟨h, -⟩, -⟩ | ⟨h, -⟩ | ⟨-, h⟩)
            · exact absurd h (not_le.mpr hd2)
            · exact absurd h (not_le.mpr hd2)
            · exact h
          · intro h; exact Or.inr (Or.inr ⟨by linarith, h⟩)
        refine ⟨r1, ⟨N1 + 1, ?_⟩, ?_, ?_⟩
        · intro fuel hf
          obtain ⟨m, rfl⟩ : ∃ m, fuel = m + 1 := ⟨fuel - 1, by omega⟩
          rw [step, if_neg hd, if_pos hd2]
          exact hN1 m (by omega)
        · intro m hm; exact (hiff m).mpr (hs1 m hm)
        · rw [hr1]; exact forall_congr' fun m => not_congr (hiff m).symm
      · by_cases hm : normalMatches eps (dplanes[nd.planenum]).plane.normal want = true
        · refine ⟨some n.toNat, ⟨1, ?_⟩, ?_, ?_⟩
          · intro fuel hf
            obtain ⟨m, rfl⟩ : ∃ m, fuel = m + 1 := ⟨fuel - 1, by omega⟩
            rw [step, if_neg hd, if_neg hd2, if_pos hm]
          · intro m e
            cases e
            exact (hsplit _).mpr (Or.inl ⟨⟨not_lt.mp hd2, not_lt.mp hd⟩, rfl, hm⟩)
          · simp only [reduceCtorEq, false_iff, not_forall, not_not]
            exact ⟨_, (hsplit _).mpr (Or.inl ⟨⟨not_lt.mp hd2, not_lt.mp hd⟩, rfl, hm⟩)⟩
        · have hiff : ∀ m, NodeAt tol eps dplanes dnodes p want n m ↔
              NodeAt tol eps dplanes dnodes p want nd.c0 m ∨ NodeAt tol eps dplanes dnodes p want nd.c1 m := by
            intro m
            rw [hsplit]
            constructor
            · rintro (⟨-, -, h⟩ | ⟨-, h⟩ | ⟨-, h⟩)
              · exact absurd h hm
              · exact Or.inl h
              · exact Or.inr h
            · rintro (h | h)
              · exact Or.inr (Or.inl ⟨not_lt.mp hd2, h⟩)
              · exact Or.inr (Or.inr ⟨not_lt.mp hd, h⟩)
          rcases r0 with _ | k
          · refine ⟨r1, ⟨N0 + N1 + 1, ?_⟩, ?_, ?_⟩
            · intro fuel hf
              obtain ⟨m, rfl⟩ : ∃ m, fuel = m + 1 := ⟨fuel - 1, by omega⟩
              rw [step, if_neg hd, if_neg hd2, if_neg hm, hN0 m (by omega)]
              exact hN1 m (by omega)
            · intro m e; exact (hiff m).mpr (Or.inr (hs1 m e))
            · rw [hr1]
              have h0 := hr0.mp rfl
              exact forall_congr' fun m => not_congr ⟨fun h => (hiff m).mpr (Or.inr h),
                fun h => ((hiff m).mp h).resolve_left (h0 m)⟩
          · refine ⟨some k, ⟨N0 + 1, ?_⟩, ?_, ?_⟩
            · intro fuel hf
              obtain ⟨m, rfl⟩ : ∃ m, fuel = m + 1 := ⟨fuel - 1, by omega⟩
              rw [step, if_neg hd, if_neg hd2, if_neg hm, hN0 m (by omega)]
            · intro m e; exact (hiff m).mpr (Or.inl (hs0 m e))
            · simp only [reduceCtorEq, false_iff, not_forall, not_not]
              exact ⟨k, (hiff k).mpr (Or.inl (hs0 k rfl))⟩

/-! ### Cases -/

/-- A wall and a floor that meet. -/
def cornerPlanes : List (DPlane ℚ) := [⟨⟨⟨1, 0, 0⟩, 0⟩, .x⟩, ⟨⟨⟨0, 0, 1⟩, 0⟩, .z⟩]

def cornerNodes : List DNode := [⟨0, 1, -1, 0, 1⟩, ⟨1, -2, -1, 1, 1⟩]

def cornerFaces : List (DFace ℚ) :=
  [⟨⟨⟨1, 0, 0⟩, 0⟩, [⟨0, 0, 0⟩, ⟨0, 0, 10⟩, ⟨0, 10, 10⟩, ⟨0, 10, 0⟩]⟩,
   ⟨⟨⟨0, 0, 1⟩, 0⟩, [⟨0, 0, 0⟩, ⟨0, 10, 0⟩, ⟨10, 10, 0⟩, ⟨10, 0, 0⟩]⟩]

/-- If one of the faces that are found has the wanted normal, the face that is returned has it. -/
def WantedFirst : Prop := ∀ (dplanes : List (DPlane ℚ)) (dnodes : List DNode) (dfaces : List (DFace ℚ)) (p want : Vec ℚ) (n : Int)
  (l : List Nat) (fuel j k : Nat) (f g : DFace ℚ), findFaces (1 / 10) dplanes dnodes dfaces p want fuel n = some (.ok l) →
    firstFace l = some k → dfaces[k]? = some f → j ∈ l → dfaces[j]? = some g → g.plane.normal = want → f.plane.normal = want

/-- Near a corner the wall is returned for a point of the floor and the normal of the floor. -/
theorem wall_before_floor : ¬ WantedFirst := by
  intro h
  have hrun : findFaces (1 / 10) cornerPlanes cornerNodes cornerFaces ⟨1 / 20, 5, 0⟩ ⟨0, 0, 1⟩ 5 0 = some (.ok [0, 1]) := by
    decide +kernel
  have := h _ _ _ _ _ _ _ 5 1 0 _ _ hrun rfl rfl (by simp) rfl rfl
  revert this
  decide +kernel

theorem corner_sound : Sound cornerPlanes cornerNodes [⟨-2, 0, 0, 0, 0, 0, 0⟩, ⟨-1, 0, 0, 0, 0, 0, 0⟩] 0 :=
  .node 0 ⟨0, 1, -1, 0, 1⟩ (by omega) rfl (by decide)
    (.node 1 ⟨1, -2, -1, 1, 1⟩ (by omega) rfl (by decide) (.leaf _ (by decide) (by decide)) (.leaf _ (by decide) (by decide)))
    (.leaf _ (by decide) (by decide))

theorem corner_types : ∀ nd ∈ cornerNodes, ∀ d, cornerPlanes[nd.planenum]? = some d → TypeOk d := by
  intro nd _ d hd
  have := List.mem_of_getElem? hd
  simp only [cornerPlanes, List.mem_cons, List.not_mem_nil, or_false] at this
  rcases this with rfl | rfl <;> simp [TypeOk]

theorem corner_faces : FacesThere cornerNodes cornerFaces := by
  unfold FacesThere
  decide +kernel

example : findFaces (1 / 10) cornerPlanes cornerNodes cornerFaces ⟨1, 5, 1⟩ ⟨0, 0, 0⟩ 5 0 = some (.ok []) := by decide +kernel

example : findNode (1 / 10) (1 / 100) cornerPlanes cornerNodes ⟨1 / 20, 5, 0⟩ ⟨0, 0, -1⟩ 5 0 = some (.ok (some 1)) := by
  decide +kernel

/-- The middle of the floor, a bit above it. -/
theorem corner_middle : AtPoint (1 / 10) cornerPlanes cornerNodes cornerFaces ⟨5 + 1 / 20 * 0, 5 + 1 / 20 * 0, 0 + 1 / 20 * 1⟩ ⟨0, 0, 1⟩ 0 1 := by
  have hm : Mean (K := ℚ) [⟨0, 0, 0⟩, ⟨0, 10, 0⟩, ⟨10, 10, 0⟩, ⟨10, 0, 0⟩] ⟨5, 5, 0⟩ := by
    have := Mean.mix (K := ℚ) [⟨0, 0, 0⟩, ⟨0, 10, 0⟩, ⟨10, 10, 0⟩, ⟨10, 0, 0⟩] ⟨0, 0, 0⟩ ⟨10, 10, 0⟩ (1 / 2) (by norm_num) (by norm_num)
      (.corner _ _ (by simp)) (.corner _ _ (by simp))
    norm_num at this
    exact this
  refine point_of_face (q := ⟨5, 5, 0⟩) (f := ⟨⟨⟨0, 0, 1⟩, 0⟩, [⟨0, 0, 0⟩, ⟨0, 10, 0⟩, ⟨10, 10, 0⟩, ⟨10, 0, 0⟩]⟩) (m := 1)
    (nd := ⟨1, -2, -1, 1, 1⟩) (pl := ⟨⟨⟨0, 0, 1⟩, 0⟩, .z⟩) (by decide +kernel) (by norm_num) rfl rfl ⟨by decide, by decide⟩ rfl
    (by decide +kernel) ?_ hm ?_ (by decide +kernel) (by norm_num [abs_le]) (Or.inr (by decide +kernel))
  · intro v hv
    exact ((faceMatches_iff v ⟨0, 0, 0⟩ _).mp (by
      simp only [List.mem_cons, List.not_mem_nil, or_false] at hv
      rcases hv with rfl | rfl | rfl | rfl <;> decide +kernel)).2
  · exact .front 0 ⟨0, 1, -1, 0, 1⟩ ⟨⟨⟨1, 0, 0⟩, 0⟩, .x⟩ 1 (by omega) rfl rfl (by decide +kernel) (.here 1 (by omega))

example : ∃ l, (∃ N, ∀ fuel ≥ N, findFaces (1 / 10) cornerPlanes cornerNodes cornerFaces
    ⟨5 + 1 / 20 * 0, 5 + 1 / 20 * 0, 0 + 1 / 20 * 1⟩ ⟨0, 0, 1⟩ fuel 0 = some (.ok l)) ∧ 1 ∈ l := by
  obtain ⟨l, hN, hl⟩ := faces_at_point corner_types corner_sound corner_faces (tol := 1 / 10) (by norm_num)
    ⟨5 + 1 / 20 * 0, 5 + 1 / 20 * 0, 0 + 1 / 20 * 1⟩ ⟨0, 0, 1⟩
  exact ⟨l, hN, (hl 1).mpr corner_middle⟩

end Verif.Tree
