import Verif.Faces.MergeProps
import Mathlib.Tactic.Positivity
import Mathlib.Data.List.Basic

/-! Merging two convex faces yields a convex face with the area of both (C89). -/

set_option linter.unusedSectionVars false

namespace Verif.Faces

open Spec Geom

variable {K : Type} [Field K] [LinearOrder K] [IsStrictOrderedRing K]

theorem turn_cyc (n a b c : Vec K) : turn n b c a = turn n a b c := by
  simp only [turn, dot, cross, vsub]; ring

theorem turn_self (n a b : Vec K) : turn n a b b = 0 := by
  simp only [turn, dot, cross, vsub]; ring

theorem convex_sublist {n : Vec K} {l l' : List (Vec K)} (h : l'.Sublist l) (hc : Convex n l) : Convex n l' :=
  fun a b c hs => hc a b c (hs.trans h)

theorem convex_rotate {n : Vec K} {l1 l2 : List (Vec K)} (h : Convex n (l1 ++ l2)) : Convex n (l2 ++ l1) := by
  intro a b c hs
  obtain ⟨s1, s2, he, h1, h2⟩ := List.sublist_append_iff.mp hs
  have hs' : (s2 ++ s1).Sublist (l1 ++ l2) := h2.append h1
  match s1, s2, he with
  | [], s2, he =>
    simp only [List.nil_append] at he
    subst he
    exact h a b c (by simpa using hs')
  | [x], s2, he =>
    simp only [List.cons_append, List.nil_append, List.cons.injEq] at he
    obtain ⟨rfl, rfl⟩ := he
    rw [← turn_cyc]
    exact h b c a hs'
  | [x, y], s2, he =>
    simp only [List.cons_append, List.nil_append, List.cons.injEq] at he
    obtain ⟨rfl, rfl, rfl⟩ := he
    rw [turn_cyc n c a b]
    exact h c a b hs'
  | [x, y, z], s2, he =>
    simp only [List.cons_append, List.nil_append, List.cons.injEq] at he
    obtain ⟨rfl, rfl, rfl, rfl⟩ := he
    exact h a b c (by simpa using hs')
  | x :: y :: z :: t :: s, s2, he => simp at he

theorem pluecker (n a b c d : Vec K) :
    dot n (cross a b) * dot n (cross c d) - dot n (cross a c) * dot n (cross b d) +
      dot n (cross a d) * dot n (cross b c) = 0 := by
  simp only [dot, cross]; ring

theorem turn_pluecker (n p a b c d : Vec K) :
    turn n p a b * turn n p c d - turn n p a c * turn n p b d + turn n p a d * turn n p b c = 0 := by
  unfold turn
  exact pluecker n _ _ _ _

theorem turn_swap (n p a b : Vec K) : turn n p a b = - turn n p b a := by
  simp only [turn, dot, cross, vsub]; ring

/-- Directions from `p`: if `u` to `v` and `v` to `w` turn clockwise, and `u` to `w` too, then so do all directions in
between. -/
theorem cone (n p u v w y x : Vec K) (huv : turn n p u v < 0) (hvw : turn n p v w < 0) (huw : turn n p u w ≤ 0)
    (huy : turn n p u y ≤ 0) (hyv : turn n p y v ≤ 0) (hvx : turn n p v x ≤ 0) (hxw : turn n p x w ≤ 0) :
    turn n p y x ≤ 0 := by
  have key : turn n p y x * (turn n p u v * turn n p v w) =
      turn n p y v * turn n p v x * turn n p u w + turn n p y v * turn n p x w * turn n p u v +
        turn n p u y * turn n p v x * turn n p v w := by
    have e1 := turn_pluecker n p y x v w
    have e2 := turn_pluecker n p u v y w
    have s1 := turn_swap n p x v
    have s2 := turn_swap n p v y
    linear_combination turn n p u v * e1 + turn n p v x * e2 - turn n p y w * turn n p u v * s1 -
      turn n p u w * turn n p v x * s2
  have hpos : 0 < turn n p u v * turn n p v w := mul_pos_of_neg_of_neg huv hvw
  have h1 : turn n p y v * turn n p v x * turn n p u w ≤ 0 :=
    mul_nonpos_of_nonneg_of_nonpos (mul_nonneg_of_nonpos_of_nonpos hyv hvx) huw
  have h2 : turn n p y v * turn n p x w * turn n p u v ≤ 0 :=
    mul_nonpos_of_nonneg_of_nonpos (mul_nonneg_of_nonpos_of_nonpos hyv hxw) huv.le
  have h3 : turn n p u y * turn n p v x * turn n p v w ≤ 0 :=
    mul_nonpos_of_nonneg_of_nonpos (mul_nonneg_of_nonpos_of_nonpos huy hvx) hvw.le
  by_contra hc
  have : 0 < turn n p y x * (turn n p u v * turn n p v w) := mul_pos (not_le.mp hc) hpos
  linarith

/-- A point beyond the edge `p1 p2` is on the inner side of the line `x x'`. -/
theorem beyond (n p1 p2 x x' y : Vec K) (hD : turn n p1 p2 x < 0) (h1 : turn n x x' p1 ≤ 0) (h2 : turn n x x' p2 ≤ 0)
    (hy1 : turn n x p1 y ≤ 0) (hy2 : turn n y p2 x ≤ 0) : turn n x x' y ≤ 0 := by
  have key : turn n p1 p2 x * turn n x x' y = turn n x p1 y * turn n x x' p2 + turn n y p2 x * turn n x x' p1 := by
    simp only [turn, dot, cross, vsub]; ring
  have e1 := mul_nonneg_of_nonpos_of_nonpos hy1 h2
  have e2 := mul_nonneg_of_nonpos_of_nonpos hy2 h1
  by_contra hc
  have : turn n p1 p2 x * turn n x x' y < 0 := mul_neg_of_neg_of_pos hD (not_le.mp hc)
  linarith

theorem two_sublist_of_mem {α : Type} {a b : α} {l : List α} (h : b ∈ l) : [a, b].Sublist (a :: l) :=
  List.Sublist.cons_cons a (List.singleton_sublist.mpr h)

theorem head_le {n p : Vec K} {Y : List (Vec K)} (hY : Y ≠ []) (hc : Convex n (p :: Y)) :
    ∀ y ∈ Y, turn n p (Y.head hY) y ≤ 0 := by
  intro y hy
  cases Y with
  | nil => exact absurd rfl hY
  | cons z Y =>
    simp only [List.head_cons]
    rcases List.mem_cons.mp hy with rfl | hy
    · rw [turn_self]
    · exact hc p z y (List.Sublist.cons_cons p (two_sublist_of_mem hy))

theorem last_le {n p : Vec K} {X : List (Vec K)} (hX : X ≠ []) (hc : Convex n (X ++ [p])) :
    ∀ x ∈ X, turn n p x (X.getLast hX) ≤ 0 := by
  intro x hx
  obtain ⟨X', z, rfl⟩ : ∃ X' z, X = X' ++ [z] := ⟨X.dropLast, X.getLast hX, (List.dropLast_append_getLast hX).symm⟩
  simp only [List.getLast_append_singleton]
  rcases List.mem_append.mp hx with hx | hx
  · rw [← turn_cyc]
    refine hc x z p ?_
    rw [List.append_assoc]
    exact (List.singleton_sublist.mpr hx).append (by simp)
  · rw [List.mem_singleton.mp hx, turn_self]

/-- Two convex polygons that share an edge. -/
theorem union_convex (n p1 p2 : Vec K) (X Y : List (Vec K)) (hX : X ≠ []) (hY : Y ≠ [])
    (c1 : Convex n (p2 :: X ++ [p1])) (c2 : Convex n (p1 :: Y ++ [p2]))
    (s1 : ∀ x ∈ X, turn n p1 p2 x < 0) (s2 : ∀ y ∈ Y, turn n p2 p1 y < 0)
    (t1 : turn n (X.getLast hX) p1 (Y.head hY) ≤ 0) (t2 : turn n (Y.getLast hY) p2 (X.head hX) ≤ 0) :
    Convex n (p2 :: X ++ p1 :: Y) := by
  have side : ∀ (p1 p2 : Vec K) (X Y : List (Vec K)) (hX : X ≠ []) (hY : Y ≠ []), Convex n (p2 :: X ++ [p1]) →
      Convex n (p1 :: Y ++ [p2]) → (∀ x ∈ X, turn n p1 p2 x < 0) → (∀ y ∈ Y, turn n p2 p1 y < 0) →
      turn n (X.getLast hX) p1 (Y.head hY) ≤ 0 → ∀ x ∈ X, ∀ y ∈ Y, turn n x p1 y ≤ 0 := by
    intro p1 p2 X Y hX hY c1 c2 s1 s2 t1 x hx y hy
    have hh := head_le hY (convex_sublist (List.sublist_append_left _ _) c2)
    have hl := last_le hX (convex_sublist (List.sublist_cons_self _ _) c1)
    have := cone n p1 (Y.head hY) p2 (X.getLast hX) y x (by rw [← turn_cyc, ← turn_cyc, ]; exact s2 _ (List.head_mem hY))
      (s1 _ (List.getLast_mem hX)) (by rw [turn_cyc] ; exact t1) (hh y hy)
      (by rw [← turn_cyc, ← turn_cyc]; exact (s2 y hy).le) (s1 x hx).le (hl x hx)
    rw [turn_cyc] at this
    exact this
  have F1 := side p1 p2 X Y hX hY c1 c2 s1 s2 t1
  have F2 := side p2 p1 Y X hY hX c2 c1 s2 s1 t2
  have far : ∀ (p1 p2 : Vec K) (X Y : List (Vec K)), Convex n (p2 :: X ++ [p1]) → (∀ x ∈ X, turn n p1 p2 x < 0) →
      (∀ x ∈ X, ∀ y ∈ Y, turn n x p1 y ≤ 0) → (∀ y ∈ Y, ∀ x ∈ X, turn n y p2 x ≤ 0) →
      ∀ x x' y, [x, x'].Sublist X → y ∈ Y → turn n x x' y ≤ 0 := by
    intro p1 p2 X Y c1 s1 F1 F2 x x' y hs hy
    have hx : x ∈ X := hs.subset (by simp)
    refine beyond n p1 p2 x x' y (s1 x hx) ?_ ?_ (F1 x hx y hy) (F2 y hy x hx)
    · refine c1 x x' p1 ?_
      exact (hs.append (List.Sublist.refl [p1])).trans (by simp)
    · rw [turn_cyc]
      refine c1 p2 x x' ?_
      exact (List.Sublist.cons_cons p2 hs).trans (by simp)
  have G1 := far p1 p2 X Y c1 s1 F1 F2
  have G2 := far p2 p1 Y X c2 s2 F2 F1
  intro a b c hs
  obtain ⟨u, v, he, h1, h2⟩ := List.sublist_append_iff.mp hs
  match u, v, he with
  | [], v, he =>
    simp only [List.nil_append] at he
    subst he
    exact c2 a b c (h2.trans (by simp))
  | [x], v, he =>
    simp only [List.cons_append, List.nil_append, List.cons.injEq] at he
    obtain ⟨rfl, rfl⟩ := he
    have hm : a ∈ p2 :: X := List.singleton_sublist.mp h1
    rcases List.mem_cons.mp hm with rfl | hm
    · rw [← turn_cyc]
      exact c2 b c a (h2.append (List.Sublist.refl [a]))
    · rcases List.sublist_cons_iff.mp h2 with h2 | ⟨r, hr, h2⟩
      · rw [← turn_cyc]
        exact G2 b c a h2 hm
      · simp only [List.cons.injEq] at hr
        obtain ⟨rfl, rfl⟩ := hr
        exact F1 a hm c (List.singleton_sublist.mp h2)
  | [x, y], v, he =>
    simp only [List.cons_append, List.nil_append, List.cons.injEq] at he
    obtain ⟨rfl, rfl, rfl⟩ := he
    have hm : c ∈ p1 :: Y := List.singleton_sublist.mp h2
    rcases List.mem_cons.mp hm with rfl | hm
    · exact c1 a b c (h1.append (List.Sublist.refl [c]))
    · rcases List.sublist_cons_iff.mp h1 with h1 | ⟨r, hr, h1⟩
      · exact G1 a b c h1 hm
      · simp only [List.cons.injEq] at hr
        obtain ⟨rfl, rfl⟩ := hr
        rw [turn_cyc n c a b]
        exact F2 c hm b (List.singleton_sublist.mp h1)
  | [x, y, z], v, he =>
    simp only [List.cons_append, List.nil_append, List.cons.injEq] at he
    obtain ⟨rfl, rfl, rfl, rfl⟩ := he
    exact c1 a b c (h1.trans (by simp))
  | x :: y :: z :: t :: s, v, he => simp at he

/-! ## Area -/

/-- The contribution of an edge to the area. -/
def edgeArea (n a b : Vec K) : K := dot n (cross a b)

theorem edgeArea_anti (n : Vec K) : Anti (edgeArea n) := by
  intro u v
  simp only [edgeArea, dot, cross]; ring

theorem vecArea_flow (n : Vec K) (ps : List (Vec K)) : vecArea n ps = flow (edgeArea n) ps := by
  unfold vecArea
  rw [← flow_edges]
  rfl

theorem flow_tri (n a b c : Vec K) : flow (edgeArea n) [a, b, c] = turn n a b c := by
  simp only [flow, List.cons_append, List.nil_append, path, edgeArea, turn, dot, cross, vsub]; ring

/-- Leaving out a vertex changes the area by a triangle. -/
theorem flow_drop (n a p c : Vec K) (L : List (Vec K)) :
    flow (edgeArea n) (a :: p :: c :: L) = flow (edgeArea n) (a :: c :: L) + turn n a p c := by
  have := flow_chord (edgeArea n) (edgeArea_anti n) a c [p] L
  simp only [List.cons_append, List.nil_append] at this
  rw [← this, flow_tri, add_comm]

/-! ## Rotations -/

theorem vat_eq (w : List (Vec K)) {i : Nat} (h : i < w.length) : vat w i = w[i] := by
  unfold vat
  rw [Nat.mod_eq_of_lt h, List.getD_eq_getElem?_getD, List.getElem?_eq_getElem h]
  rfl

theorem rot_get (w : List (Vec K)) (i k : Nat) (hi : i < w.length) (hk : k < w.length) :
    (w.drop (i + 1) ++ w.take (i + 1)).getD k ⟨0, 0, 0⟩ = vat w (i + 1 + k) := by
  unfold vat
  rw [List.getD_eq_getElem?_getD, List.getD_eq_getElem?_getD]
  congr 1
  by_cases h : k < w.length - (i + 1)
  · rw [List.getElem?_append_left (by simpa using h), List.getElem?_drop, Nat.mod_eq_of_lt (by omega)]
  · rw [List.getElem?_append_right (by simpa using h), List.length_drop, List.getElem?_take, if_pos (by omega),
      Nat.mod_eq_sub_mod (by omega), Nat.mod_eq_of_lt (by omega)]
    congr 1
    omega

/-- The polygon from the vertex after `i` on. -/
theorem rot_split (w : List (Vec K)) (i : Nat) (hi : i < w.length) (h3 : 3 ≤ w.length) :
    ∃ (X : List (Vec K)) (hX : X ≠ []), w.drop (i + 1) ++ w.take i = vat w (i + 1) :: X ∧
      w.drop (i + 1) ++ w.take (i + 1) = vat w (i + 1) :: X ++ [vat w i] ∧
      X.head hX = vat w (i + 2) ∧ X.getLast hX = vat w (i + w.length - 1) ∧
      ∀ x ∈ X, ∃ k, k < w.length ∧ k ≠ i ∧ k ≠ (i + 1) % w.length ∧ vat w k = x := by
  have hl : (w.drop (i + 1) ++ w.take (i + 1)).length = w.length := by
    rw [List.length_append, List.length_drop, List.length_take]; omega
  have htake : w.take (i + 1) = w.take i ++ [vat w i] := by
    rw [List.take_add_one, List.getElem?_eq_getElem hi, vat_eq w hi]
    rfl
  set R := w.drop (i + 1) ++ w.take i with hR
  have hR1 : w.drop (i + 1) ++ w.take (i + 1) = R ++ [vat w i] := by rw [htake, ← List.append_assoc]
  have hRl : R.length = w.length - 1 := by
    rw [hR1, List.length_append, List.length_singleton] at hl
    omega
  have hget : ∀ k (hk : k < R.length), R[k] = vat w (i + 1 + k) := by
    intro k hk
    rw [← rot_get w i k hi (by omega), hR1, List.getD_eq_getElem?_getD, List.getElem?_append_left hk,
      List.getElem?_eq_getElem hk]
    rfl
  obtain ⟨a, X, hRX⟩ : ∃ a X, R = a :: X := by
    cases hRc : R with
    | nil => rw [hRc, List.length_nil] at hRl; omega
    | cons a X => exact ⟨a, X, rfl⟩
  have hXl : X.length = w.length - 2 := by
    rw [hRX, List.length_cons] at hRl; omega
  have ha : a = vat w (i + 1) := by
    have := hget 0 (by omega)
    simpa [hRX] using this
  have hX : X ≠ [] := by
    intro h
    rw [h, List.length_nil] at hXl; omega
  have hXget : ∀ k (hk : k < X.length), X[k] = vat w (i + 2 + k) := by
    intro k hk
    have := hget (k + 1) (by rw [hRX, List.length_cons]; omega)
    have e : R[k + 1]'(by rw [hRX, List.length_cons]; omega) = X[k] := by simp [hRX]
    rw [e] at this
    rw [this]
    congr 1
    omega
  refine ⟨X, hX, ?_, ?_, ?_, ?_, ?_⟩
  · rw [hRX, ha]
  · rw [hR1, hRX, ha]
  · rw [List.head_eq_getElem, hXget]
  · rw [List.getLast_eq_getElem, hXget]
    congr 1
    omega
  · intro x hx
    obtain ⟨k, hk, rfl⟩ := List.getElem_of_mem hx
    refine ⟨(i + 2 + k) % w.length, Nat.mod_lt _ (by omega), ?_, ?_, ?_⟩
    · by_cases h : i + 2 + k < w.length
      · rw [Nat.mod_eq_of_lt h]; omega
      · rw [Nat.mod_eq_sub_mod (by omega), Nat.mod_eq_of_lt (by omega)]; omega
    · by_cases h : i + 2 + k < w.length
      · rw [Nat.mod_eq_of_lt h, Nat.mod_eq_of_lt (by omega)]; omega
      · rw [Nat.mod_eq_sub_mod (by omega), Nat.mod_eq_of_lt (by omega)]
        by_cases h' : i + 1 < w.length
        · rw [Nat.mod_eq_of_lt h']; omega
        · rw [Nat.mod_eq_sub_mod (by omega), Nat.mod_eq_of_lt (by omega)]; omega
    · rw [hXget]
      unfold vat
      rw [Nat.mod_mod]

theorem copyFrom_cons {w : List (Vec K)} {i : Nat} {a : Vec K} {X : List (Vec K)}
    (h : w.drop (i + 1) ++ w.take i = a :: X) (keep : Bool) : copyFrom w i keep = if keep then a :: X else X := by
  unfold copyFrom
  rw [h]
  rfl

/-- The merged polygon of two faces that share an edge exactly and meet without need for the tolerances. -/
theorem merged_polygon (n : Vec K) (w1 w2 : List (Vec K)) (i j : Nat) (hi : i < w1.length) (hj : j < w2.length)
    (keep1 keep2 : Bool) (hs : SharedEdge n w1 w2 i j) (hm : MeetExactly n w1 w2 i j (keep1 = true) (keep2 = true)) :
    (Convex n w1 → Convex n w2 → Convex n (copyFrom w1 i keep2 ++ copyFrom w2 j keep1)) ∧
      vecArea n (copyFrom w1 i keep2 ++ copyFrom w2 j keep1) = vecArea n w1 + vecArea n w2 := by
  obtain ⟨X, hX, x1, x2, x3, x4, x5⟩ := rot_split w1 i hi hs.len1
  obtain ⟨Y, hY, y1, y2, y3, y4, y5⟩ := rot_split w2 j hj hs.len2
  obtain ⟨m1, m2, m3, m4⟩ := hm
  rw [copyFrom_cons x1, copyFrom_cons y1, ← hs.start]
  rw [← hs.start] at y1
  rw [← hs.start, ← hs.stop] at y2
  have s1 : ∀ x ∈ X, turn n (vat w1 i) (vat w1 (i + 1)) x < 0 := by
    intro x hx
    obtain ⟨k, k1, k2, k3, rfl⟩ := x5 x hx
    exact hs.strict1 k k1 k2 k3
  have s2 : ∀ y ∈ Y, turn n (vat w1 (i + 1)) (vat w1 i) y < 0 := by
    intro y hy
    obtain ⟨k, k1, k2, k3, rfl⟩ := y5 y hy
    rw [hs.start, hs.stop]
    exact hs.strict2 k k1 k2 k3
  rw [← x4, ← y3] at m1 m3
  rw [← y4, ← x3] at m2 m4
  set p1 := vat w1 i
  set p2 := vat w1 (i + 1)
  constructor
  · intro c1 c2
    have c1' : Convex n (p2 :: X ++ [p1]) := by
      rw [← x2]
      refine convex_rotate ?_
      rw [List.take_append_drop]
      exact c1
    have c2' : Convex n (p1 :: Y ++ [p2]) := by
      rw [← y2]
      refine convex_rotate ?_
      rw [List.take_append_drop]
      exact c2
    refine convex_sublist ?_ (union_convex n p1 p2 X Y hX hY c1' c2' s1 s2 m1 m2)
    refine List.Sublist.append ?_ ?_
    · split <;> simp
    · split <;> simp
  · have a1 : vecArea n w1 = flow (edgeArea n) (p2 :: X ++ [p1]) := by
      rw [vecArea_flow, ← x2, flow_rotate, List.take_append_drop]
    have a2 : vecArea n w2 = flow (edgeArea n) (p1 :: Y ++ [p2]) := by
      rw [vecArea_flow, ← y2, flow_rotate, List.take_append_drop]
    have full : flow (edgeArea n) (p2 :: X ++ p1 :: Y) = vecArea n w1 + vecArea n w2 := by
      rw [a1, a2, flow_rotate (edgeArea n) (p1 :: Y) [p2]]
      exact (flow_chord (edgeArea n) (edgeArea_anti n) p2 p1 X Y).symm
    rw [vecArea_flow, ← full]
    obtain ⟨yh, Y', rfl⟩ : ∃ a l, Y = a :: l := by
      cases Y with
      | nil => exact absurd rfl hY
      | cons a l => exact ⟨a, l, rfl⟩
    obtain ⟨X', xl, rfl⟩ : ∃ l a, X = l ++ [a] :=
      ⟨X.dropLast, X.getLast hX, (List.dropLast_append_getLast hX).symm⟩
    simp only [List.getLast_append_singleton, List.head_cons] at m1 m3
    -- leave out the second end first
    have drop1 : ∀ L : List (Vec K), ¬ keep1 = true →
        flow (edgeArea n) (L ++ (X' ++ [xl]) ++ p1 :: yh :: Y') = flow (edgeArea n) (L ++ (X' ++ [xl]) ++ yh :: Y') := by
      intro L hk
      have e1 : L ++ (X' ++ [xl]) ++ p1 :: yh :: Y' = (L ++ X') ++ (xl :: p1 :: yh :: Y') := by simp
      have e2 : L ++ (X' ++ [xl]) ++ yh :: Y' = (L ++ X') ++ (xl :: yh :: Y') := by simp
      rw [e1, e2, flow_rotate (edgeArea n) (L ++ X'), flow_rotate (edgeArea n) (L ++ X')]
      simp only [List.cons_append]
      rw [flow_drop, m3 hk, add_zero]
    have drop2 : ∀ M : List (Vec K), ¬ keep2 = true →
        flow (edgeArea n) (p2 :: (X' ++ [xl]) ++ (M ++ yh :: Y')) = flow (edgeArea n) ((X' ++ [xl]) ++ (M ++ yh :: Y')) := by
      intro M hk
      have hz := m4 hk
      obtain ⟨xh, X'', hxx⟩ : ∃ a l, X' ++ [xl] = a :: l := by
        cases h : X' ++ [xl] with
        | nil => exact absurd h hX
        | cons a l => exact ⟨a, l, rfl⟩
      obtain ⟨Y'', yl, hyy⟩ : ∃ l a, yh :: Y' = l ++ [a] :=
        ⟨(yh :: Y').dropLast, (yh :: Y').getLast hY, (List.dropLast_append_getLast hY).symm⟩
      have hz' : turn n yl p2 xh = 0 := by
        have e1 : (yh :: Y').getLast hY = yl := by simp only [hyy, List.getLast_append_singleton]
        have e2 : (X' ++ [xl]).head hX = xh := by simp only [hxx, List.head_cons]
        rw [e1, e2] at hz
        exact hz
      rw [hxx, hyy]
      have f1 : p2 :: xh :: X'' ++ (M ++ (Y'' ++ [yl])) = (p2 :: xh :: X'' ++ (M ++ Y'')) ++ [yl] := by simp
      have f2 : xh :: X'' ++ (M ++ (Y'' ++ [yl])) = (xh :: X'' ++ (M ++ Y'')) ++ [yl] := by simp
      rw [f1, f2, flow_rotate (edgeArea n) _ [yl], flow_rotate (edgeArea n) _ [yl]]
      simp only [List.cons_append, List.nil_append]
      rw [flow_drop, hz', add_zero]
    cases keep1 <;> cases keep2
    · have d1 := drop1 [p2] (by simp)
      have d2 := drop2 [] (by simp)
      simp only [List.cons_append, List.nil_append] at d1 d2
      simp only [Bool.false_eq_true, if_false]
      rw [List.cons_append, d1, d2]
    · have d1 := drop1 [p2] (by simp)
      simp only [List.cons_append, List.nil_append] at d1
      simp only [Bool.false_eq_true, if_false, if_true]
      rw [List.cons_append, List.cons_append, d1]
    · have d2 := drop2 [p1] (by simp)
      simp only [List.cons_append, List.nil_append] at d2
      simp only [Bool.false_eq_true, if_false, if_true]
      rw [List.cons_append, d2]
    · simp only [if_true]

/-- C89: when two convex faces are merged that share the edge exactly and meet without need for the tolerances, the merged
face is convex and its area is the sum of their areas. -/
theorem merge_convex {cfg : MergeCfg K} {f1 f2 f : MFace K} (h : tryMerge cfg f1 f2 = some f) :
    ∃ i j, commonEdge cfg.equal f1.w f2.w = some (i, j) ∧
      ∀ (_ : SharedEdge (cfg.normal f1.planenum) f1.w f2.w i j)
        (_ : MeetExactly (cfg.normal f1.planenum) f1.w f2.w i j
          (slope cfg f1.planenum (vsub (vat f1.w i) (vat f1.w (i + f1.w.length - 1))) (vat f1.w i) (vat f2.w (j + 2)) < -cfg.continuous)
          (slope cfg f1.planenum (vsub (vat f1.w (i + 2)) (vat f1.w (i + 1))) (vat f1.w (i + 1))
            (vat f2.w (j + f2.w.length - 1)) < -cfg.continuous)),
        (Convex (cfg.normal f1.planenum) f1.w → Convex (cfg.normal f1.planenum) f2.w → Convex (cfg.normal f1.planenum) f.w) ∧
        vecArea (cfg.normal f1.planenum) f.w =
          vecArea (cfg.normal f1.planenum) f1.w + vecArea (cfg.normal f1.planenum) f2.w := by
  obtain ⟨-, -, -, -, -, i, j, he, -, -, rfl⟩ := tryMerge_some h
  obtain ⟨hi, hj, -, -⟩ := commonEdge_some he
  refine ⟨i, j, he, ?_⟩
  intro hs hm
  refine merged_polygon _ f1.w f2.w i j hi hj _ _ hs ?_
  simpa using hm

/-- C89 without tolerances: every merge of convex faces, none of whose other vertices is on the line of the common edge,
yields a convex face with the area of both. -/
theorem merge_convex_exact {cfg : MergeCfg K} (h0 : cfg.equal = 0) (h1 : cfg.continuous = 0)
    (hn : ∀ v, ∃ c : K, 0 < c ∧ cfg.normalize v = ⟨c * v.x, c * v.y, c * v.z⟩)
    {f1 f2 f : MFace K} (h : tryMerge cfg f1 f2 = some f) (hl1 : 3 ≤ f1.w.length) (hl2 : 3 ≤ f2.w.length)
    (hst1 : ∀ i k, i < f1.w.length → k < f1.w.length → k ≠ i → k ≠ (i + 1) % f1.w.length →
      turn (cfg.normal f1.planenum) (vat f1.w i) (vat f1.w (i + 1)) (vat f1.w k) < 0)
    (hst2 : ∀ i k, i < f2.w.length → k < f2.w.length → k ≠ i → k ≠ (i + 1) % f2.w.length →
      turn (cfg.normal f1.planenum) (vat f2.w i) (vat f2.w (i + 1)) (vat f2.w k) < 0)
    (c1 : Convex (cfg.normal f1.planenum) f1.w) (c2 : Convex (cfg.normal f1.planenum) f2.w) :
    Convex (cfg.normal f1.planenum) f.w ∧
      vecArea (cfg.normal f1.planenum) f.w =
        vecArea (cfg.normal f1.planenum) f1.w + vecArea (cfg.normal f1.planenum) f2.w := by
  obtain ⟨-, -, -, -, -, i, j, he, hs1, hs2, rfl⟩ := tryMerge_some h
  obtain ⟨hi, hj, he1, he2⟩ := commonEdge_some he
  have hclose : ∀ a b : Vec K, closeTo cfg.equal a b = true → a = b := by
    intro a b hab
    simp only [closeTo, h0, Bool.and_eq_true, decide_eq_true_eq, abs_nonpos_iff, sub_eq_zero] at hab
    obtain ⟨⟨hx, hy⟩, hz⟩ := hab
    cases a; cases b; simp_all
  have hsh : SharedEdge (cfg.normal f1.planenum) f1.w f2.w i j :=
    ⟨hl1, hl2, hclose _ _ he1, hclose _ _ he2, fun k => hst1 i k hi, fun k => hst2 j k hj⟩
  obtain ⟨e1, e1p, e1e⟩ := hn (cross (cfg.normal f1.planenum) (vsub (vat f1.w i) (vat f1.w (i + f1.w.length - 1))))
  obtain ⟨e2, e2p, e2e⟩ := hn (cross (cfg.normal f1.planenum) (vsub (vat f1.w (i + 2)) (vat f1.w (i + 1))))
  have k1 : slope cfg f1.planenum (vsub (vat f1.w i) (vat f1.w (i + f1.w.length - 1))) (vat f1.w i) (vat f2.w (j + 2)) =
      e1 * turn (cfg.normal f1.planenum) (vat f1.w (i + f1.w.length - 1)) (vat f1.w i) (vat f2.w (j + 2)) := by
    unfold slope
    rw [e1e]
    simp only [turn, dot, cross, vsub]; ring
  have k2 : slope cfg f1.planenum (vsub (vat f1.w (i + 2)) (vat f1.w (i + 1))) (vat f1.w (i + 1))
      (vat f2.w (j + f2.w.length - 1)) =
      e2 * turn (cfg.normal f1.planenum) (vat f2.w (j + f2.w.length - 1)) (vat f1.w (i + 1)) (vat f1.w (i + 2)) := by
    unfold slope
    rw [e2e]
    simp only [turn, dot, cross, vsub]; ring
  have sgn : ∀ (e t : K), 0 < e → e * t ≤ 0 → t ≤ 0 := by
    intro e t he ht
    by_contra hc
    exact absurd (mul_pos he (not_le.mp hc)) (not_lt.mpr ht)
  have sgn' : ∀ (e t : K), 0 < e → t ≤ 0 → ¬ e * t < 0 → t = 0 := by
    intro e t he ht hn
    rcases lt_or_eq_of_le ht with h | h
    · exact absurd (mul_neg_of_pos_of_neg he h) hn
    · exact h
  rw [h1] at hs1 hs2
  have t1 := sgn e1 _ e1p (k1 ▸ hs1)
  have t2 := sgn e2 _ e2p (k2 ▸ hs2)
  have hmeet := merged_polygon _ f1.w f2.w i j hi hj
    (decide (slope cfg f1.planenum (vsub (vat f1.w i) (vat f1.w (i + f1.w.length - 1))) (vat f1.w i) (vat f2.w (j + 2)) < -cfg.continuous))
    (decide (slope cfg f1.planenum (vsub (vat f1.w (i + 2)) (vat f1.w (i + 1))) (vat f1.w (i + 1))
      (vat f2.w (j + f2.w.length - 1)) < -cfg.continuous)) hsh
    ⟨t1, t2, fun hk => sgn' e1 _ e1p t1 (by simpa [h1, k1] using hk), fun hk => sgn' e2 _ e2p t2 (by simpa [h1, k2] using hk)⟩
  exact ⟨hmeet.1 c1 c2, hmeet.2⟩

/-! ## Example: two squares side by side -/

def exCfg : MergeCfg ℚ := ⟨false, 0, 0, fun _ => ⟨0, 0, 1⟩, id⟩

def exLeft : MFace ℚ := ⟨0, 0, 4, false, false, [⟨0, 0, 0⟩, ⟨0, 2, 0⟩, ⟨2, 2, 0⟩, ⟨2, 0, 0⟩]⟩

def exRight : MFace ℚ := ⟨0, 0, 4, false, false, [⟨2, 0, 0⟩, ⟨2, 2, 0⟩, ⟨4, 2, 0⟩, ⟨5, 0, 0⟩]⟩

def exBoth : MFace ℚ := ⟨0, 0, 4, false, false, [⟨0, 0, 0⟩, ⟨0, 2, 0⟩, ⟨4, 2, 0⟩, ⟨5, 0, 0⟩]⟩

theorem exMerge : tryMerge exCfg exLeft exRight = some exBoth := by decide +kernel

example : Convex (⟨0, 0, 1⟩ : Vec ℚ) exBoth.w := by
  refine (merge_convex_exact (cfg := exCfg) rfl rfl (fun v => ⟨1, by norm_num, by simp [exCfg]⟩) exMerge (by decide) (by decide)
    ?_ ?_ ?_ ?_).1
  · have : ∀ i < 4, ∀ k < 4, k ≠ i → k ≠ (i + 1) % 4 →
        turn (⟨0, 0, 1⟩ : Vec ℚ) (vat exLeft.w i) (vat exLeft.w (i + 1)) (vat exLeft.w k) < 0 := by decide +kernel
    exact fun i k hi hk h1 h2 => this i hi k hk h1 h2
  · have : ∀ i < 4, ∀ k < 4, k ≠ i → k ≠ (i + 1) % 4 →
        turn (⟨0, 0, 1⟩ : Vec ℚ) (vat exRight.w i) (vat exRight.w (i + 1)) (vat exRight.w k) < 0 := by decide +kernel
    exact fun i k hi hk h1 h2 => this i hi k hk h1 h2
  · intro a b c h
    have : [a, b, c] ∈ exLeft.w.sublists := List.mem_sublists.mpr h
    simp [exLeft, List.sublists, List.foldr] at this
    rcases this with ⟨rfl, rfl, rfl⟩ | ⟨rfl, rfl, rfl⟩ | ⟨rfl, rfl, rfl⟩ | ⟨rfl, rfl, rfl⟩ <;>
      norm_num [turn, dot, cross, vsub, exCfg]
  · intro a b c h
    have : [a, b, c] ∈ exRight.w.sublists := List.mem_sublists.mpr h
    simp [exRight, List.sublists, List.foldr] at this
    rcases this with ⟨rfl, rfl, rfl⟩ | ⟨rfl, rfl, rfl⟩ | ⟨rfl, rfl, rfl⟩ | ⟨rfl, rfl, rfl⟩ <;>
      norm_num [turn, dot, cross, vsub, exCfg]

end Verif.Faces
