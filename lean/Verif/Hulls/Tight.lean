import Verif.Hulls.Bevels
import Verif.Hulls.Cone

/-! Lemmas: what is behind all sides of the grown brush is not parted from it. -/

namespace Verif.Hulls

open Geom Geom.Spec BrushBsp BrushBsp.Spec Hulls.Spec

variable {K : Type} [Field K] [LinearOrder K] [IsStrictOrderedRing K]

theorem pairs_range {α : Type} (d : α) : ∀ l : List α,
    pairs l = (List.range (l.length - 1)).map fun j => (l.getD j d, l.getD (j + 1) d) := by
  intro l
  induction l with
  | nil => simp [pairs]
  | cons a l ih =>
    cases l with
    | nil => simp [pairs]
    | cons b l =>
      rw [pairs, ih]
      simp only [List.length_cons, Nat.add_sub_cancel]
      rw [List.range_succ_eq_map]
      simp [Function.comp_def]

/-- The edges of the loop are the edges. -/
theorem edgesOf_eq (w : List (Vec K)) : edgesOf w = edges w := by
  cases w with
  | nil => simp [edgesOf, edges]
  | cons a l =>
    unfold edges edgesOf
    simp only
    rw [pairs_range ⟨0, 0, 0⟩]
    have hl : (a :: l ++ [a]).length - 1 = (a :: l).length := by simp
    rw [hl]
    apply List.map_congr_left
    intro j hj
    rw [List.mem_range] at hj
    have h1 : (a :: l ++ [a]).getD j ⟨0, 0, 0⟩ = (a :: l).getD j ⟨0, 0, 0⟩ := by
      rw [List.getD_eq_getElem?_getD, List.getElem?_append_left hj, ← List.getD_eq_getElem?_getD]
    have h2 : (a :: l ++ [a]).getD (j + 1) ⟨0, 0, 0⟩ = (a :: l).getD ((j + 1) % (a :: l).length) ⟨0, 0, 0⟩ := by
      rcases Nat.lt_or_ge (j + 1) (a :: l).length with h | h
      · rw [List.getD_eq_getElem?_getD, List.getElem?_append_left h, ← List.getD_eq_getElem?_getD, Nat.mod_eq_of_lt h]
      · have e : j + 1 = (a :: l).length := by omega
        rw [List.getD_eq_getElem?_getD, List.getElem?_append_right h, e, Nat.mod_self]
        simp
    rw [h1, h2]

/-- A step of a loop that brings something about that stays. -/
theorem foldl_reach {α β : Type} {I P : β → Prop} {f : β → α → β} {x : α} : ∀ (l : List α) (b : β), x ∈ l → I b →
    (∀ b, I b → ∀ a ∈ l, I (f b a)) → (∀ b, I b → P (f b x)) → (∀ b, I b → P b → ∀ a, P (f b a)) → P (l.foldl f b) := by
  intro l
  induction l with
  | nil => intro b h; simp at h
  | cons a l ih =>
    intro b hx hI hs hP hm
    simp only [List.foldl_cons]
    have hI' := hs b hI a (by simp)
    have hs' : ∀ b, I b → ∀ y ∈ l, I (f b y) := fun b hb y hy => hs b hb y (by simp [hy])
    rcases List.mem_cons.1 hx with rfl | hx
    · have : ∀ (l : List α) (b : β), (∀ b, I b → ∀ a ∈ l, I (f b a)) → I b → P b → P (l.foldl f b) := by
        intro l
        induction l with
        | nil => intro b _ _ h; exact h
        | cons c l ih =>
          intro b h1 h2 h3
          exact ih _ (fun b hb y hy => h1 b hb y (by simp [hy])) (h1 b h2 c (by simp)) (hm b h2 h3 c)
      exact this l _ hs' hI' (hP b hI)
    · exact ih _ hx hI' hs' hP hm

/-- There is a face with the plane. -/
def HasPlane (pl : Plane K) (l : List (Face K)) : Prop := ∃ f ∈ l, f.plane = pl

theorem hasPlane_slanted {env : Env K} {pl : Plane K} {tex : Nat} {vec p : Vec K} {l : List (Face K)} {axis : Nat} {up : Bool}
    (h : HasPlane pl l) : HasPlane pl (addSlanted env tex vec p l axis up) := by
  obtain ⟨f, hf, e⟩ := h
  unfold addSlanted
  generalize env.normalize (cross vec (unitVec axis (if up = true then 1 else -1))) = n
  simp only
  split
  · exact ⟨f, hf, e⟩
  · split
    · exact ⟨f, List.mem_append_left _ hf, e⟩
    · exact ⟨f, hf, e⟩

theorem hasPlane_edge {env : Env K} {pl : Plane K} {tex : Nat} {l : List (Face K)} {e : Vec K × Vec K}
    (h : HasPlane pl l) : HasPlane pl (addEdge env tex l e) := by
  unfold addEdge
  simp only
  split
  · exact h
  · split
    · exact h
    · exact foldl_inv (P := HasPlane pl) _ _ h (fun b hb a _ => hasPlane_slanted hb)

theorem slanted_all {env : Env K} {r l : List (Face K)} (h : Slanted env r l) {pl : Plane K}
    (hall : ∀ f ∈ r, ∀ p ∈ f.w, pl.distTo p ≤ env.epsilon) : ∀ f ∈ l, ∀ p ∈ f.w, pl.distTo p ≤ env.epsilon := by
  obtain ⟨ext, rfl, hn⟩ := h
  intro f hf p hp
  rcases List.mem_append.1 hf with h | h
  · exact hall f h p hp
  · rw [(hn f h).1] at hp; simp at hp

/-- The bevel of an edge is added, or its plane was there. -/
theorem bevel_present {env : Env K} {r fs : List (Face K)} (hx : Exact env fs) {f : Face K} (hf : f ∈ fs) (hr : f ∈ r.drop 6)
    {e : Vec K × Vec K} (he : e ∈ edges f.w) (hs : Slant (minus e.1 e.2)) {axis : Nat} (ha : axis < 3) (up : Bool)
    {n : Vec K} (hn : n = (env.normalize (cross (env.snap (env.normalize (minus e.1 e.2)).1)
      (unitVec axis (if up then 1 else -1)))).1)
    (hall : ∀ g ∈ r, ∀ p ∈ g.w, (⟨n, dot e.1 n⟩ : Plane K).distTo p ≤ 0) :
    HasPlane ⟨n, dot e.1 n⟩ (addEdges env r) := by
  obtain ⟨h1, h2, h3, h4⟩ := hx.edge f hf e he hs
  have h5 := (h4 axis (if up then 1 else -1) ha (by cases up <;> simp)).1
  have hall' : ∀ g ∈ r, ∀ p ∈ g.w, (⟨n, dot e.1 n⟩ : Plane K).distTo p ≤ env.epsilon :=
    fun g hg p hp => le_trans (hall g hg p hp) hx.eps
  have tex : ∀ g ∈ r.drop 6, ∃ g' ∈ r, g.texinfo = g'.texinfo := fun g hg => ⟨g, List.mem_of_mem_drop hg, rfl⟩
  unfold addEdges
  apply foldl_reach (I := Slanted env r) (x := f) _ _ hr ⟨[], by simp, by simp⟩
  · intro b hb g hg
    exact foldl_inv (P := Slanted env r) _ _ hb (fun b hb e _ => addEdge_ok (tex g hg) hb)
  · intro b hb
    apply foldl_reach (I := Slanted env r) (x := e) _ _ (by rw [edgesOf_eq]; exact he) hb
    · intro b hb e _; exact addEdge_ok (tex f hr) hb
    · intro b hb
      unfold addEdge
      have em : (⟨e.1.x - e.2.x, e.1.y - e.2.y, e.1.z - e.2.z⟩ : Vec K) = minus e.1 e.2 := rfl
      simp only [em]
      rw [if_neg (not_lt.2 h1)]
      have hno : ¬ (((env.snap (env.normalize (minus e.1 e.2)).1).x = -1 ∨ (env.snap (env.normalize (minus e.1 e.2)).1).x = 1) ∨
          ((env.snap (env.normalize (minus e.1 e.2)).1).y = -1 ∨ (env.snap (env.normalize (minus e.1 e.2)).1).y = 1) ∨
          ((env.snap (env.normalize (minus e.1 e.2)).1).z = -1 ∨ (env.snap (env.normalize (minus e.1 e.2)).1).z = 1)) := by
        rintro (h | h | h)
        · exact h3 ⟨0, by omega, by simpa [comp] using h⟩
        · exact h3 ⟨1, by omega, by simpa [comp] using h⟩
        · exact h3 ⟨2, by omega, by simpa [comp] using h⟩
      rw [if_neg hno]
      apply foldl_reach (I := Slanted env r) (x := (axis, up)) _ _ _ hb
      · intro b hb a _; exact addSlanted_ok (tex f hr) hb
      · intro b hb
        unfold addSlanted
        simp only
        rw [if_neg (not_lt.2 h5), ← hn]
        by_cases ho : outer env ⟨n, dot e.1 n⟩ b = true
        · rw [if_pos ho]
          exact ⟨⟨env.store ⟨n, dot e.1 n⟩, [], true, f.texinfo⟩, by simp, hx.store _⟩
        · rw [if_neg ho]
          unfold outer at ho
          rw [List.all_eq_true] at ho
          push Not at ho
          obtain ⟨g, hg, hb'⟩ := ho
          have hw : (g.w.all fun p => !decide (dot p n - dot e.1 n > env.epsilon)) = true := by
            rw [List.all_eq_true]
            intro p hp
            have := slanted_all hb hall' g hg p hp
            simp only [Plane.distTo] at this
            simpa using this
          simp only at hb'
          rw [hw, Bool.and_true] at hb'
          have hnear : env.near g.plane ⟨n, dot e.1 n⟩ = true := by
            cases hh : env.near g.plane ⟨n, dot e.1 n⟩
            · rw [hh] at hb'; simp at hb'
            · rfl
          exact ⟨g, hg, hx.near _ _ hnear⟩
      · intro b _ hp a; exact hasPlane_slanted hp
      · interval_cases axis <;> cases up <;> simp
    · intro b _ hp a; exact hasPlane_edge hp
  · intro b _ hp a
    exact foldl_inv (P := HasPlane _) _ _ hp (fun b hb a _ => hasPlane_edge hb)

theorem argmax {α : Type} (f : α → K) : ∀ l : List α, l ≠ [] → ∃ v ∈ l, ∀ u ∈ l, f u ≤ f v := by
  intro l
  induction l with
  | nil => intro h; exact absurd rfl h
  | cons a l ih =>
    intro _
    by_cases hl : l = []
    · subst hl; exact ⟨a, by simp, by simp⟩
    · obtain ⟨v, hv, hall⟩ := ih hl
      rcases le_total (f a) (f v) with h | h
      · refine ⟨v, by simp [hv], ?_⟩
        intro u hu
        rcases List.mem_cons.1 hu with rfl | hu
        · exact h
        · exact hall u hu
      · refine ⟨a, by simp, ?_⟩
        intro u hu
        rcases List.mem_cons.1 hu with rfl | hu
        · exact le_refl _
        · exact le_trans (hall u hu) h

theorem dot_unitVec {axis : Nat} (ha : axis < 3) (d : K) (g : Vec K) : dot (unitVec axis d) g = d * comp axis g := by
  interval_cases axis <;> simp [dot, unitVec, comp]

/-- A direction with two components 0. -/
theorem axial_of_two {g : Vec K} (hg : g ≠ ⟨0, 0, 0⟩) {i j : Nat} (hi : i < 3) (hj : j < 3) (hij : i ≠ j)
    (h1 : comp i g = 0) (h2 : comp j g = 0) : ∃ axis up, axis < 3 ∧ ∃ k, 0 < k ∧ g = times k (dirVec axis up) := by
  have key : ∀ axis, axis < 3 → (∀ i, i < 3 → i ≠ axis → comp i g = 0) →
      ∃ axis up, axis < 3 ∧ ∃ k, 0 < k ∧ g = times k (dirVec axis up) := by
    intro axis ha h
    have hne : comp axis g ≠ 0 := by
      intro h0
      apply hg
      have a0 := if e : (0 : Nat) = axis then (by subst e; exact h0 : comp 0 g = 0) else h 0 (by omega) e
      have a1 := if e : (1 : Nat) = axis then (by subst e; exact h0 : comp 1 g = 0) else h 1 (by omega) e
      have a2 := if e : (2 : Nat) = axis then (by subst e; exact h0 : comp 2 g = 0) else h 2 (by omega) e
      cases g
      simp only [comp, if_true, one_ne_zero, if_false, OfNat.ofNat_ne_zero, OfNat.ofNat_ne_one] at a0 a1 a2
      rw [a0, a1, a2]
    have hgg : g = unitVec axis (comp axis g) := by
      have a0 := h 0 (by omega)
      have a1 := h 1 (by omega)
      have a2 := h 2 (by omega)
      cases g
      interval_cases axis <;> simp_all [comp, unitVec]
    have ht : ∀ k d : K, times k (unitVec axis d) = unitVec axis (k * d) := by
      intro k d
      interval_cases axis <;> simp [times, unitVec]
    rcases lt_or_gt_of_ne hne with h0 | h0
    · refine ⟨axis, false, ha, -comp axis g, by linarith, ?_⟩
      unfold dirVec
      rw [ht]
      simpa using hgg
    · refine ⟨axis, true, ha, comp axis g, h0, ?_⟩
      unfold dirVec
      rw [ht]
      simpa using hgg
  have hk : ∃ k, k < 3 ∧ k ≠ i ∧ k ≠ j := by
    interval_cases i <;> interval_cases j <;> first | exact absurd rfl hij | exact ⟨0, by decide⟩ | exact ⟨1, by decide⟩ | exact ⟨2, by decide⟩
  obtain ⟨k, hk3, hki, hkj⟩ := hk
  apply key k hk3
  intro l hl hlk
  have : l = i ∨ l = j := by omega
  rcases this with rfl | rfl
  · exact h1
  · exact h2

/-- A direction that is not slanted. -/
theorem not_slant {d : Vec K} (hd : d ≠ ⟨0, 0, 0⟩) (h : ¬ Slant d) : ∃ axis, axis < 3 ∧ ∃ k, k ≠ 0 ∧ d = unitVec axis k := by
  unfold Slant at h
  push Not at h
  obtain ⟨h1, h2, h3⟩ := h
  cases d with
  | mk x y z =>
    simp only at h1 h2 h3
    by_cases hx : x = 0
    · by_cases hy : y = 0
      · refine ⟨2, by omega, z, ?_, by simp [unitVec, hx, hy]⟩
        rintro rfl; exact hd (by rw [hx, hy])
      · exact ⟨1, by omega, y, hy, by simp [unitVec, hx, h2 hy]⟩
    · exact ⟨0, by omega, x, hx, by simp [unitVec, h1 hx, h3 hx]⟩

theorem slant_times {d : Vec K} {k : K} (hk : k ≠ 0) (h : Slant d) : Slant (times k d) := by
  unfold Slant times at *
  simp only [ne_eq, mul_eq_zero, hk, false_or]
  exact h

end Verif.Hulls
