import Verif.Hulls.Lemmas
import Mathlib.Tactic.IntervalCases

/-! Lemmas: what `AddBrushBevels` adds. -/

namespace Verif.Hulls

open Geom Geom.Spec BrushBsp BrushBsp.Spec Hulls.Spec

variable {K : Type} [Field K] [LinearOrder K] [IsStrictOrderedRing K]

/-- The direction with the number `k` in the canonical order. -/
def dirVec (axis : Nat) (up : Bool) : Vec K := unitVec axis (if up then 1 else -1)

theorem comp_unit {n : Vec K} (hu : dot n n = 1) {axis : Nat} (ha : axis < 3) {up : Bool}
    (h : comp axis n = if up then 1 else -1) : n = dirVec axis up := by
  have h1 : (comp axis n) * (comp axis n) = 1 := by rw [h]; cases up <;> simp
  have hx := mul_self_nonneg n.x
  have hy := mul_self_nonneg n.y
  have hz := mul_self_nonneg n.z
  simp only [dot] at hu
  cases n
  unfold dirVec
  interval_cases axis
  · simp only [comp, unitVec, if_true] at *
    rw [Vec.mk.injEq]
    exact ⟨h, mul_self_eq_zero.1 (by linarith), mul_self_eq_zero.1 (by linarith)⟩
  · simp only [comp, unitVec, if_true, one_ne_zero, if_false] at *
    rw [Vec.mk.injEq]
    exact ⟨mul_self_eq_zero.1 (by linarith), h, mul_self_eq_zero.1 (by linarith)⟩
  · simp only [comp, unitVec, OfNat.ofNat_ne_zero, OfNat.ofNat_ne_one, if_false] at *
    rw [Vec.mk.injEq]
    exact ⟨mul_self_eq_zero.1 (by linarith), mul_self_eq_zero.1 (by linarith), h⟩

theorem comp_dirVec {axis : Nat} (ha : axis < 3) (up : Bool) : comp axis (dirVec axis up : Vec K) = if up then 1 else -1 := by
  unfold dirVec
  interval_cases axis <;> simp [comp, unitVec]

theorem one_ne_neg : (1 : K) ≠ -1 := by
  intro h
  have : (0 : K) < 1 := one_pos
  linarith

theorem comp_other {axis axis' : Nat} (ha : axis < 3) (ha' : axis' < 3) {up up' : Bool} (h : (axis, up) ≠ (axis', up')) :
    comp axis (dirVec axis' up' : Vec K) ≠ if up then 1 else -1 := by
  have h1 := one_ne_neg (K := K)
  unfold dirVec
  interval_cases axis <;> interval_cases axis' <;> cases up <;> cases up' <;>
    first
    | (exfalso; exact h rfl)
    | (simp [comp, unitVec]; done)
    | (simp [comp, unitVec]; exact h1)
    | (simp [comp, unitVec]; exact h1.symm)

/-- A new axial face. -/
def NewAxial (env : Env K) (b : Bounds K) (fs : List (Face K)) (f : Face K) : Prop :=
  f.w = [] ∧ f.bevel = true ∧ (∃ g ∈ fs, f.texinfo = g.texinfo) ∧
    ∃ axis up, axis < 3 ∧ f.plane = env.store (axialPlane b axis up)

/-- The state of the loop after `k` directions. -/
def AxInv (env : Env K) (b : Bounds K) (fs : List (Face K)) (k : Nat) (r : List (Face K)) : Prop :=
  (∃ extra, r.Perm (fs ++ extra) ∧ ∀ f ∈ extra, NewAxial env b fs f) ∧
    ∀ j, j < k → ∃ f, r[j]? = some f ∧ f.plane.normal = dirVec (j / 2) (decide (j % 2 = 1))

theorem ax_step {env : Env K} {b : Bounds K} {fs : List (Face K)} (hne : fs ≠ [])
    (hu : ∀ f ∈ fs, UnitNormal f.plane)
    (hs : ∀ axis up, axis < 3 → (env.store (axialPlane b axis up)).normal = dirVec axis up) {k : Nat} (hk : k < 6)
    {r : List (Face K)} (h : AxInv env b fs k r) :
    ∃ r', addAxial env b k (k / 2) (decide (k % 2 = 1)) r = .ok r' ∧ AxInv env b fs (k + 1) r' := by
  obtain ⟨⟨extra, hperm, hnew⟩, hcan⟩ := h
  have hax : k / 2 < 3 := by omega
  set axis := k / 2 with haxis
  set up := decide (k % 2 = 1) with hup
  have hunit : ∀ f ∈ r, dot f.plane.normal f.plane.normal = 1 := by
    intro f hf
    rcases List.mem_append.1 (hperm.mem_iff.1 hf) with hf | hf
    · exact hu f hf
    · obtain ⟨_, _, _, a, u, ha, e⟩ := hnew f hf
      rw [e, hs a u ha]
      unfold dirVec unitVec dot
      interval_cases a <;> cases u <;> simp
  have hlen : k ≤ r.length := by
    rcases Nat.eq_zero_or_pos k with h0 | h0
    · omega
    · obtain ⟨f, e, _⟩ := hcan (k - 1) (by omega)
      have := (List.getElem?_eq_some_iff.1 e).1
      omega
  -- what is at the front is not of this direction
  have hprev : ∀ j, j < k → ∀ f, r[j]? = some f → comp axis f.plane.normal ≠ if up then 1 else -1 := by
    intro j hj f e
    obtain ⟨f', e', hf'⟩ := hcan j hj
    rw [e] at e'
    cases e'
    rw [hf']
    apply comp_other hax (by omega)
    intro heq
    have h1 : k / 2 = j / 2 := congrArg Prod.fst heq
    have h2 : decide (k % 2 = 1) = decide (j % 2 = 1) := congrArg Prod.snd heq
    rw [decide_eq_decide] at h2
    omega
  set i := r.findIdx fun f => decide (comp axis f.plane.normal = if up then 1 else -1) with hi
  have hile : i ≤ r.length := List.findIdx_le_length
  have hki : k ≤ i := by
    by_contra hcon
    rw [not_le] at hcon
    have hlt : i < r.length := by omega
    have := List.findIdx_getElem (w := hlt) (p := fun f : Face K => decide (comp axis f.plane.normal = if up then 1 else -1))
    rw [decide_eq_true_iff] at this
    exact hprev i hcon _ (List.getElem?_eq_getElem hlt) this
  have hrne : r ≠ [] := by
    intro e
    rw [e] at hperm
    have := hperm.length_eq
    cases fs with
    | nil => exact hne rfl
    | cons => simp at this
  -- the list with the face
  obtain ⟨fs', hfs', hlt, hcomp, hperm', hfront⟩ : ∃ fs', (if i = r.length then
        r ++ [⟨env.store (axialPlane b axis up), [], true, (r.head?.map (·.texinfo)).getD 0⟩] else r) = fs' ∧
      ∃ hlt : i < fs'.length, comp axis fs'[i].plane.normal = (if up then 1 else -1) ∧
        (∃ extra, fs'.Perm (fs ++ extra) ∧ ∀ f ∈ extra, NewAxial env b fs f) ∧ ∀ j, j < k → fs'[j]? = r[j]? := by
    by_cases hl : i = r.length
    · rw [if_pos hl]
      refine ⟨_, rfl, by simp [hl], ?_, ?_, ?_⟩
      · rw [List.getElem_append_right (by omega)]
        simp only [hl, Nat.sub_self, List.getElem_cons_zero]
        rw [hs axis up hax, comp_dirVec hax]
      · refine ⟨extra ++ [_], by rw [← List.append_assoc]; exact hperm.append_right _, ?_⟩
        intro f hf
        rcases List.mem_append.1 hf with hf | hf
        · exact hnew f hf
        · simp only [List.mem_singleton] at hf
          subst hf
          refine ⟨rfl, rfl, ?_, axis, up, hax, rfl⟩
          cases hr : r with
          | nil => exact absurd hr hrne
          | cons a l =>
            have ha : a ∈ fs ++ extra := hperm.mem_iff.1 (by rw [hr]; simp)
            simp only [List.head?_cons, Option.map_some, Option.getD_some]
            rcases List.mem_append.1 ha with h | h
            · exact ⟨a, h, rfl⟩
            · exact (hnew a h).2.2.1
      · intro j hj
        rw [List.getElem?_append_left (by omega)]
    · rw [if_neg hl]
      have hlt : i < r.length := by omega
      refine ⟨r, rfl, hlt, ?_, ⟨extra, hperm, hnew⟩, fun _ _ => rfl⟩
      have := List.findIdx_getElem (w := hlt) (p := fun f : Face K => decide (comp axis f.plane.normal = if up then 1 else -1))
      simpa using this
  obtain ⟨extra', hp', hn'⟩ := hperm'
  have hunit' : dot fs'[i].plane.normal fs'[i].plane.normal = 1 := by
    have hm : fs'[i] ∈ fs ++ extra' := hp'.mem_iff.1 (List.getElem_mem _)
    rcases List.mem_append.1 hm with hf | hf
    · exact hu _ hf
    · obtain ⟨_, _, _, a, u, ha, e⟩ := hn' _ hf
      rw [e, hs a u ha]
      unfold dirVec unitVec dot
      interval_cases a <;> cases u <;> simp
  have hdir := comp_unit hunit' hax hcomp
  unfold addAxial
  simp only
  rw [← hi, hfs']
  by_cases hik : i = k
  · rw [if_neg (by simpa using hik)]
    refine ⟨fs', rfl, ⟨extra', hp', hn'⟩, ?_⟩
    intro j hj
    rcases Nat.lt_or_ge j k with h1 | h1
    · rw [hfront j h1]; exact hcan j h1
    · have : j = k := by omega
      subst this
      refine ⟨fs'[i], by rw [← hik]; exact List.getElem?_eq_getElem hlt, hdir⟩
  · rw [if_pos hik]
    have hklt : k < fs'.length := by omega
    unfold swapAt
    rw [List.getElem?_eq_getElem hklt, List.getElem?_eq_getElem hlt]
    simp only
    refine ⟨_, rfl, ⟨extra', (List.set_set_perm hklt hlt).trans hp', hn'⟩, ?_⟩
    intro j hj
    have hji : j ≠ i := by omega
    rw [List.getElem?_set_ne (by omega)]
    rcases Nat.lt_or_ge j k with h1 | h1
    · rw [List.getElem?_set_ne (by omega), hfront j h1]; exact hcan j h1
    · have : j = k := by omega
      subst this
      exact ⟨fs'[i], by rw [List.getElem?_set_self hklt], hdir⟩

/-- The loop over the axes. -/
theorem addAxials_ok {env : Env K} {b : Bounds K} {fs : List (Face K)} (hne : fs ≠ [])
    (hu : ∀ f ∈ fs, UnitNormal f.plane)
    (hs : ∀ axis up, axis < 3 → (env.store (axialPlane b axis up)).normal = dirVec axis up) :
    ∃ r, addAxials env b fs = .ok r ∧ AxInv env b fs 6 r := by
  have i0 : AxInv env b fs 0 fs := ⟨⟨[], by simp, by simp⟩, by omega⟩
  obtain ⟨r1, e1, i1⟩ := ax_step hne hu hs (by omega) i0
  obtain ⟨r2, e2, i2⟩ := ax_step hne hu hs (by omega) i1
  obtain ⟨r3, e3, i3⟩ := ax_step hne hu hs (by omega) i2
  obtain ⟨r4, e4, i4⟩ := ax_step hne hu hs (by omega) i3
  obtain ⟨r5, e5, i5⟩ := ax_step hne hu hs (by omega) i4
  obtain ⟨r6, e6, i6⟩ := ax_step hne hu hs (by omega) i5
  refine ⟨r6, ?_, i6⟩
  unfold addAxials
  change addAxial env b 0 0 false fs = _ at e1
  change addAxial env b 1 0 true r1 = _ at e2
  change addAxial env b 2 1 false r2 = _ at e3
  change addAxial env b 3 1 true r3 = _ at e4
  change addAxial env b 4 2 false r4 = _ at e5
  change addAxial env b 5 2 true r5 = _ at e6
  simp only [e1, e2, e3, e4, e5, e6, Outcome.ok_bind]

/-- A new slanted face. -/
def NewSlanted (env : Env K) (r : List (Face K)) (f : Face K) : Prop :=
  f.w = [] ∧ f.bevel = true ∧ (∃ g ∈ r, f.texinfo = g.texinfo) ∧
    ∃ pl, f.plane = env.store pl ∧ ∀ g ∈ r, ∀ p ∈ g.w, pl.distTo p ≤ env.epsilon

/-- The list with new slanted faces. -/
def Slanted (env : Env K) (r r' : List (Face K)) : Prop := ∃ ext, r' = r ++ ext ∧ ∀ f ∈ ext, NewSlanted env r f

theorem addSlanted_ok {env : Env K} {r l : List (Face K)} {tex : Nat} (ht : ∃ g ∈ r, tex = g.texinfo) {vec p : Vec K}
    {axis : Nat} {up : Bool} (h : Slanted env r l) : Slanted env r (addSlanted env tex vec p l axis up) := by
  unfold addSlanted
  generalize env.normalize (cross vec (unitVec axis (if up = true then 1 else -1))) = n
  simp only
  split
  · exact h
  · split
    · rename_i ho
      obtain ⟨ext, rfl, hn⟩ := h
      refine ⟨ext ++ [_], by rw [← List.append_assoc], ?_⟩
      intro f hf
      rcases List.mem_append.1 hf with hf | hf
      · exact hn f hf
      · simp only [List.mem_singleton] at hf
        subst hf
        refine ⟨rfl, rfl, ht, _, rfl, ?_⟩
        intro g hg q hq
        unfold outer at ho
        rw [List.all_eq_true] at ho
        have := ho g (List.mem_append_left _ hg)
        simp only [Bool.and_eq_true, List.all_eq_true] at this
        have := this.2 q hq
        simpa [Plane.distTo] using this
    · exact h

theorem addEdge_ok {env : Env K} {r l : List (Face K)} {tex : Nat} (ht : ∃ g ∈ r, tex = g.texinfo) {e : Vec K × Vec K}
    (h : Slanted env r l) : Slanted env r (addEdge env tex l e) := by
  unfold addEdge
  simp only
  split
  · exact h
  · split
    · exact h
    · simp only [List.foldl_cons, List.foldl_nil]
      exact addSlanted_ok ht (addSlanted_ok ht (addSlanted_ok ht (addSlanted_ok ht (addSlanted_ok ht (addSlanted_ok ht h)))))

theorem foldl_inv {α β : Type} {P : β → Prop} {f : β → α → β} : ∀ (l : List α) (b : β), P b →
    (∀ b, P b → ∀ a ∈ l, P (f b a)) → P (l.foldl f b) := by
  intro l
  induction l with
  | nil => intro b h _; exact h
  | cons a l ih =>
    intro b h hs
    exact ih _ (hs b h a (by simp)) (fun b hb x hx => hs b hb x (by simp [hx]))

theorem addEdges_ok {env : Env K} {r : List (Face K)} : Slanted env r (addEdges env r) := by
  unfold addEdges
  apply foldl_inv (P := Slanted env r)
  · exact ⟨[], by simp, by simp⟩
  · intro l hl f hf
    apply foldl_inv (P := Slanted env r) _ _ hl
    intro l hl e he
    exact addEdge_ok ⟨f, List.mem_of_mem_drop hf, rfl⟩ hl

/-- All that is added. -/
theorem addBevels_ok {env : Env K} {b : Bounds K} {fs : List (Face K)} (hne : fs ≠ [])
    (hu : ∀ f ∈ fs, UnitNormal f.plane)
    (hs : ∀ axis up, axis < 3 → (env.store (axialPlane b axis up)).normal = dirVec axis up) :
    ∃ r ext, addAxials env b fs = .ok r ∧ addBevels env b fs = .ok (r ++ ext) ∧ AxInv env b fs 6 r ∧
      (r ++ ext = addEdges env r ∨ (r.length = 6 ∧ ext = [])) ∧
      ∀ f ∈ ext, NewSlanted env r f := by
  obtain ⟨r, e, hi⟩ := addAxials_ok hne hu hs
  unfold addBevels
  rw [e, Outcome.ok_bind]
  by_cases hl : r.length = 6
  · rw [if_pos hl]
    exact ⟨r, [], rfl, by simp, hi, Or.inr ⟨hl, rfl⟩, by simp⟩
  · rw [if_neg hl]
    obtain ⟨ext, h1, h2⟩ := addEdges_ok (env := env) (r := r)
    exact ⟨r, ext, rfl, by rw [h1], hi, Or.inl h1.symm, h2⟩

end Verif.Hulls
