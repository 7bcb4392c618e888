import Verif.Tree.Planes
import Verif.Geom.Spec
import Mathlib.Tactic.Linarith
import Mathlib.Tactic.LinearCombination
import Mathlib.Tactic.Ring
import Mathlib.Tactic.FinCases
import Mathlib.Data.Fintype.Basic
import Mathlib.Data.Fin.Basic
import Mathlib.Tactic.NormNum
import Mathlib.Tactic.Push
import Mathlib.Algebra.Order.Field.Rat

/-! C77: the list of planes. -/

namespace Verif.Tree

open Geom Geom.Spec

set_option linter.unusedSectionVars false

variable {K : Type} [Field K] [LinearOrder K] [IsStrictOrderedRing K]

namespace Spec

/-- Two planes agree up to a tolerance in each component of the normal and in the distance. -/
def Near (epsN epsD : K) (p q : Plane K) : Prop :=
  |p.normal.x - q.normal.x| ≤ epsN ∧ |p.normal.y - q.normal.y| ≤ epsN ∧ |p.normal.z - q.normal.z| ≤ epsN ∧
    |p.dist - q.dist| ≤ epsD

/-- The normal faces the positive direction of the axis, and no other component is larger. -/
def FacesAxis (n : Vec K) (i : Fin 3) : Prop := 0 < comp n i ∧ ∀ j, |comp n j| ≤ comp n i

/-- The spatial map yields an entry of the box whenever there is one. -/
def PickOk (pick : List Nat → Nat) : Prop := ∀ l, l ≠ [] → pick l < l.length

end Spec

open Spec

theorem unit_axis {n : Vec K} (h : dot n n = 1) (i : Fin 3) {v : K} (hv : v = 1 ∨ v = -1) (hi : comp n i = v) :
    n = axisVec i v := by
  obtain ⟨x, y, z⟩ := n
  have hv2 : v * v = 1 := by rcases hv with rfl | rfl <;> ring
  simp only [dot] at h
  have key : ∀ a b : K, a * a + b * b = 0 → a = 0 ∧ b = 0 := fun a b hab =>
    ⟨mul_self_eq_zero.1 (by nlinarith [mul_self_nonneg a, mul_self_nonneg b]),
      mul_self_eq_zero.1 (by nlinarith [mul_self_nonneg a, mul_self_nonneg b])⟩
  fin_cases i
  · simp only [comp] at hi
    simp at hi
    subst hi
    obtain ⟨h1, h2⟩ := key y z (by linear_combination h - hv2)
    simp [axisVec, h1, h2]
  · simp only [comp] at hi
    simp at hi
    subst hi
    obtain ⟨h1, h2⟩ := key x z (by linear_combination h - hv2)
    simp [axisVec, h1, h2]
  · simp only [comp] at hi
    simp at hi
    subst hi
    obtain ⟨h1, h2⟩ := key x y (by linear_combination h - hv2)
    simp [axisVec, h1, h2]

theorem normalizeAxis_plane {p : Plane K} (h : UnitNormal p) {i : Fin 3} {q : QPlane K}
    (hq : normalizeAxis p i = some q) : q = ⟨p, axial i⟩ ∧ (comp p.normal i = 1 ∨ comp p.normal i = -1) := by
  unfold normalizeAxis at hq
  by_cases h1 : comp p.normal i = 1
  · rw [if_pos h1] at hq
    simp only [Option.some.injEq] at hq
    rw [← unit_axis h i (Or.inl rfl) h1] at hq
    exact ⟨hq.symm, Or.inl h1⟩
  · rw [if_neg h1] at hq
    by_cases h2 : comp p.normal i = -1
    · rw [if_pos h2] at hq
      simp only [Option.some.injEq] at hq
      rw [← unit_axis h i (Or.inr rfl) h2] at hq
      exact ⟨hq.symm, Or.inr h2⟩
    · rw [if_neg h2] at hq; cases hq

/-- What `normalize` does to a plane with a unit normal: the plane stays, and the type is the axial one or the one of
the largest component. -/
theorem mkPlane_cases {p : Plane K} (h : UnitNormal p) :
    (mkPlane p).plane = p ∧
      ((∃ i, (mkPlane p).type = axial i ∧ (comp p.normal i = 1 ∨ comp p.normal i = -1)) ∨
        ((mkPlane p).type = nearestType p.normal ∧ ∀ i, comp p.normal i ≠ 1 ∧ comp p.normal i ≠ -1)) := by
  unfold mkPlane
  have hn : ∀ i, normalizeAxis p i = none → comp p.normal i ≠ 1 ∧ comp p.normal i ≠ -1 := by
    intro i hi
    unfold normalizeAxis at hi
    by_cases h1 : comp p.normal i = 1
    · rw [if_pos h1] at hi; cases hi
    · rw [if_neg h1] at hi
      by_cases h2 : comp p.normal i = -1
      · rw [if_pos h2] at hi; cases hi
      · exact ⟨h1, h2⟩
  rcases h0 : normalizeAxis p 0 with _ | q
  · rcases h1 : normalizeAxis p 1 with _ | q
    · rcases h2 : normalizeAxis p 2 with _ | q
      · refine ⟨rfl, Or.inr ⟨rfl, ?_⟩⟩
        intro i
        fin_cases i
        · exact hn _ h0
        · exact hn _ h1
        · exact hn _ h2
      · obtain ⟨rfl, hc⟩ := normalizeAxis_plane h h2
        exact ⟨rfl, Or.inl ⟨2, rfl, hc⟩⟩
    · obtain ⟨rfl, hc⟩ := normalizeAxis_plane h h1
      exact ⟨rfl, Or.inl ⟨1, rfl, hc⟩⟩
  · obtain ⟨rfl, hc⟩ := normalizeAxis_plane h h0
    exact ⟨rfl, Or.inl ⟨0, rfl, hc⟩⟩

theorem axial_axis (i : Fin 3) : (axial i).axis = i := by
  fin_cases i <;> rfl

theorem unit_comp_le {n : Vec K} (h : dot n n = 1) (j : Fin 3) : |comp n j| ≤ 1 := by
  have : comp n j * comp n j ≤ 1 := by
    simp only [dot] at h
    fin_cases j <;> simp [comp] <;> nlinarith [mul_self_nonneg n.x, mul_self_nonneg n.y, mul_self_nonneg n.z]
  rw [abs_le]
  constructor <;> nlinarith

/-- The component along the axis of the type is the largest one. -/
theorem mkPlane_largest {p : Plane K} (h : UnitNormal p) (j : Fin 3) :
    |comp p.normal j| ≤ |comp p.normal (mkPlane p).type.axis| := by
  obtain ⟨-, ⟨i, ht, hc⟩ | ⟨ht, -⟩⟩ := mkPlane_cases h
  · rw [ht, axial_axis]
    refine (unit_comp_le h j).trans ?_
    rcases hc with hc | hc <;> rw [hc] <;> simp
  · rw [ht]
    unfold nearestType
    by_cases h1 : |p.normal.x| ≥ |p.normal.y| ∧ |p.normal.x| ≥ |p.normal.z|
    · rw [if_pos h1]
      fin_cases j <;> simp [comp, PType.axis] <;> first | exact h1.1 | exact h1.2
    · rw [if_neg h1]
      by_cases h2 : |p.normal.y| ≥ |p.normal.x| ∧ |p.normal.y| ≥ |p.normal.z|
      · rw [if_pos h2]
        fin_cases j <;> simp [comp, PType.axis] <;> first | exact h2.1 | exact h2.2
      · rw [if_neg h2]
        have h3 : |p.normal.x| ≤ |p.normal.z| ∧ |p.normal.y| ≤ |p.normal.z| := by
          constructor
          · by_contra hc
            push Not at hc
            by_cases hxy : |p.normal.x| ≥ |p.normal.y|
            · exact h1 ⟨hxy, hc.le⟩
            · push Not at hxy
              exact h2 ⟨hxy.le, (hc.trans hxy).le⟩
          · by_contra hc
            push Not at hc
            by_cases hxy : |p.normal.x| ≥ |p.normal.y|
            · exact h1 ⟨hxy, hc.le.trans hxy⟩
            · push Not at hxy
              exact h2 ⟨hxy.le, hc.le⟩
        fin_cases j <;> simp [comp, PType.axis] <;> first | exact h3.1 | exact h3.2

theorem comp_neg (n : Vec K) (i : Fin 3) : comp (negVec n) i = -comp n i := by
  fin_cases i <;> simp [comp, negVec]

theorem mkPlane_axis_ne {p : Plane K} (h : UnitNormal p) : comp p.normal (mkPlane p).type.axis ≠ 0 := by
  intro h0
  have hj := mkPlane_largest h
  rw [h0, abs_zero] at hj
  have hx : ∀ j, comp p.normal j = 0 := fun j => abs_nonpos_iff.1 (hj j)
  have := hx 0
  have := hx 1
  have := hx 2
  simp [comp] at *
  unfold UnitNormal dot at h
  simp_all

theorem unit_neg {p : Plane K} (h : UnitNormal p) : UnitNormal (negPlane p) := by
  unfold UnitNormal at *
  rw [← h]
  simp only [negPlane, negVec, dot]; ring

/-- The opposite plane has the same type. -/
theorem mkPlane_neg_type {p : Plane K} (h : UnitNormal p) : (mkPlane (negPlane p)).type = (mkPlane p).type := by
  obtain ⟨-, h1⟩ := mkPlane_cases h
  obtain ⟨-, h2⟩ := mkPlane_cases (unit_neg h)
  have hcn : ∀ i, comp (negPlane p).normal i = -comp p.normal i := fun i => comp_neg _ i
  have huniq : ∀ i j, (comp p.normal i = 1 ∨ comp p.normal i = -1) → (comp p.normal j = 1 ∨ comp p.normal j = -1) →
      i = j := by
    intro i j hi hj
    by_contra hne
    have hax := unit_axis h i hi rfl
    have h0 : comp p.normal j = 0 := by
      rw [hax]
      fin_cases i <;> fin_cases j <;> simp [comp, axisVec] at hne ⊢
    rw [h0] at hj
    rcases hj with hj | hj <;> norm_num at hj
  rcases h1 with ⟨i, ht, hc⟩ | ⟨ht, hc⟩ <;> rcases h2 with ⟨j, ht', hc'⟩ | ⟨ht', hc'⟩
  · rw [ht, ht', huniq j i ?_ hc]
    rw [hcn] at hc'
    rcases hc' with hc' | hc'
    · exact Or.inr (by linarith)
    · exact Or.inl (by linarith)
  · have := hc' i
    rw [hcn] at this
    rcases hc with hc | hc <;> rw [hc] at this <;> simp at this
  · have := hc j
    rw [hcn] at hc'
    rcases hc' with hc' | hc'
    · exact absurd (by linarith : comp p.normal j = -1) this.2
    · exact absurd (by linarith : comp p.normal j = 1) this.1
  · rw [ht, ht']
    simp [nearestType, negPlane, negVec]

/-- What the list looks like: pairs of opposite planes, the even one facing its axis. -/
def Pair (a b : MapPlane K) : Prop :=
  b.plane = negPlane a.plane ∧ b.type = a.type ∧ FacesAxis a.plane.normal a.type.axis ∧
    UnitNormal a.plane ∧ a.type = (mkPlane a.plane).type

theorem negPlane_neg (p : Plane K) : negPlane (negPlane p) = p := by
  simp [negPlane, negVec]

/-- What `add_plane` appends. -/
theorem addPlane_planes {db : PlaneDb K} {p : Plane K} (h : UnitNormal p) :
    ∃ a b, (addPlane db p).2.planes = db.planes ++ [a, b] ∧ Pair a b ∧
      (((addPlane db p).1 = db.planes.length ∧ a.plane = p) ∨
        ((addPlane db p).1 = db.planes.length + 1 ∧ b.plane = p)) ∧
      (addPlane db p).2.hash =
        emplace (emplace db.hash (keyOf a.plane) db.planes.length) (keyOf b.plane) (db.planes.length + 1) := by
  have hp := (mkPlane_cases h).1
  have hn := (mkPlane_cases (unit_neg h)).1
  have htn := mkPlane_neg_type h
  have hne := mkPlane_axis_ne h
  have hl := mkPlane_largest h
  by_cases hs : comp (mkPlane p).plane.normal (mkPlane p).type.axis < 0
  · refine ⟨⟨negPlane p, (mkPlane p).type, none⟩, ⟨p, (mkPlane p).type, none⟩, ?_, ?_, ?_, ?_⟩
    · simp only [addPlane]
      rw [if_pos hs, if_pos hs, hp, hn, htn]
    · refine ⟨(negPlane_neg p).symm, rfl, ⟨?_, ?_⟩, unit_neg h, htn.symm⟩
      · simp only [negPlane, comp_neg]
        rw [hp] at hs
        linarith
      · intro j
        simp only [negPlane, comp_neg, abs_neg]
        have := hl j
        rw [hp] at hs
        rwa [abs_of_neg hs] at this
    · refine Or.inr ⟨?_, rfl⟩
      simp only [addPlane]
      rw [if_pos hs]
    · simp only [addPlane]
      rw [if_pos hs, if_pos hs, hp, hn]
  · refine ⟨⟨p, (mkPlane p).type, none⟩, ⟨negPlane p, (mkPlane p).type, none⟩, ?_, ?_, ?_, ?_⟩
    · simp only [addPlane]
      rw [if_neg hs, if_neg hs, hp, hn, htn]
    · rw [hp] at hs
      have hpos : 0 < comp p.normal (mkPlane p).type.axis := lt_of_le_of_ne (not_lt.1 hs) (Ne.symm hne)
      refine ⟨rfl, rfl, ⟨hpos, ?_⟩, h, rfl⟩
      intro j
      have := hl j
      rwa [abs_of_pos hpos] at this
    · refine Or.inl ⟨?_, rfl⟩
      simp only [addPlane]
      rw [if_neg hs]
    · simp only [addPlane]
      rw [if_neg hs, if_neg hs, hp, hn]

/-- The invariant of the list. -/
structure DbOk (db : PlaneDb K) : Prop where
  even : db.planes.length % 2 = 0
  pairs : ∀ k a b, db.planes[2 * k]? = some a → db.planes[2 * k + 1]? = some b → Pair a b
  hash : ∀ e ∈ db.hash, ∃ m, db.planes[e.2]? = some m ∧ keyOf m.plane = e.1
  covered : ∀ m ∈ db.planes, ∃ e ∈ db.hash, e.1 = keyOf m.plane

theorem dbOk_empty : DbOk (PlaneDb.empty : PlaneDb K) :=
  ⟨rfl, fun k a b h _ => by simp [PlaneDb.empty] at h, fun e h => by simp [PlaneDb.empty] at h,
    fun m h => by simp [PlaneDb.empty] at h⟩

theorem emplace_mem {h : List ((Vec K × K) × Nat)} {k : Vec K × K} {v : Nat} {e : (Vec K × K) × Nat} (he : e ∈ h) :
    e ∈ emplace h k v := by
  unfold emplace
  by_cases hc : h.any (fun e => e.1 = k) = true
  · rw [if_pos hc]; exact he
  · rw [if_neg hc]; simp [he]

theorem emplace_key (h : List ((Vec K × K) × Nat)) (k : Vec K × K) (v : Nat) : ∃ e ∈ emplace h k v, e.1 = k := by
  unfold emplace
  by_cases hc : h.any (fun e => e.1 = k) = true
  · rw [if_pos hc]
    simpa using hc
  · rw [if_neg hc]; exact ⟨(k, v), by simp, rfl⟩

theorem mem_emplace {h : List ((Vec K × K) × Nat)} {k : Vec K × K} {v : Nat} {e : (Vec K × K) × Nat}
    (he : e ∈ emplace h k v) : e ∈ h ∨ e = (k, v) := by
  unfold emplace at he
  by_cases hc : h.any (fun e => e.1 = k) = true
  · rw [if_pos hc] at he; exact Or.inl he
  · rw [if_neg hc] at he
    simpa using he

theorem dbOk_add {db : PlaneDb K} (hd : DbOk db) {p : Plane K} (h : UnitNormal p) : DbOk (addPlane db p).2 := by
  obtain ⟨a, b, hpl, hpair, -, hh⟩ := addPlane_planes (db := db) h
  have hev := hd.even
  refine ⟨?_, ?_, ?_, ?_⟩
  · rw [hpl]; simp only [List.length_append, List.length_cons, List.length_nil]; omega
  · intro k a' b' ha hb
    rw [hpl] at ha hb
    by_cases hk : 2 * k + 1 < db.planes.length
    · rw [List.getElem?_append_left (by omega)] at ha hb
      exact hd.pairs k a' b' ha hb
    · rw [List.getElem?_append_right (by omega)] at ha hb
      have hlt := (List.getElem?_eq_some_iff.1 hb).1
      simp only [List.length_cons, List.length_nil] at hlt
      have hk2 : 2 * k = db.planes.length := by omega
      rw [hk2] at ha hb
      simp only [Nat.sub_self, Nat.add_sub_cancel_left] at ha hb
      simp at ha hb
      subst ha; subst hb
      exact hpair
  · intro e he
    rw [hh] at he
    rw [hpl]
    rcases mem_emplace he with he | rfl
    · rcases mem_emplace he with he | rfl
      · obtain ⟨m, hm, hk⟩ := hd.hash e he
        exact ⟨m, by rw [List.getElem?_append_left (List.getElem?_eq_some_iff.1 hm).1]; exact hm, hk⟩
      · exact ⟨a, by simp, rfl⟩
    · exact ⟨b, by simp, rfl⟩
  · intro m hm
    rw [hpl] at hm
    rw [hh]
    simp only [List.mem_append, List.mem_cons, List.not_mem_nil, or_false] at hm
    rcases hm with hm | rfl | rfl
    · obtain ⟨e, he, hk⟩ := hd.covered m hm
      exact ⟨e, emplace_mem (emplace_mem he), hk⟩
    · obtain ⟨e, he, hk⟩ := emplace_key db.hash (keyOf m.plane) db.planes.length
      exact ⟨e, emplace_mem he, hk⟩
    · exact emplace_key _ _ _

theorem near_of_inBox {epsN epsD : K} {p q : Plane K} (h : inBox epsN epsD p (keyOf q)) : Near epsN epsD p q := by
  simp only [inBox, keyOf] at h
  obtain ⟨h1, h2, h3, h4, h5, h6, h7, h8⟩ := h
  simp only [Near, abs_le]
  refine ⟨⟨?_, ?_⟩, ⟨?_, ?_⟩, ⟨?_, ?_⟩, ⟨?_, ?_⟩⟩ <;> linarith

theorem findPlane_near {epsN epsD : K} {pick : List Nat → Nat} {db : PlaneDb K} (hd : DbOk db) {p : Plane K}
    {n : Nat} (h : findPlane epsN epsD pick db p = some n) :
    ∃ m, db.planes[n]? = some m ∧ Near epsN epsD p m.plane := by
  unfold findPlane at h
  have hm := List.mem_of_getElem? h
  simp only [List.mem_map, List.mem_filter, decide_eq_true_eq] at hm
  obtain ⟨e, ⟨he, hb⟩, rfl⟩ := hm
  obtain ⟨m, hm, hk⟩ := hd.hash e he
  exact ⟨m, hm, near_of_inBox (hk ▸ hb)⟩

theorem addOrFind_ok {epsN epsD : K} (h0 : 0 ≤ epsN) (h1 : 0 ≤ epsD) {pick : List Nat → Nat} {db : PlaneDb K}
    (hd : DbOk db) {p : Plane K} (hu : UnitNormal p) :
    DbOk (addOrFind epsN epsD pick db p).2 ∧ (∃ l, (addOrFind epsN epsD pick db p).2.planes = db.planes ++ l) ∧
      ∃ m, (addOrFind epsN epsD pick db p).2.planes[(addOrFind epsN epsD pick db p).1]? = some m ∧
        Near epsN epsD p m.plane := by
  unfold addOrFind
  rcases hf : findPlane epsN epsD pick db p with _ | n
  · obtain ⟨a, b, hpl, -, hr, -⟩ := addPlane_planes (db := db) hu
    have hself : Near epsN epsD p p := by simp [Near, h0, h1]
    refine ⟨dbOk_add hd hu, ⟨_, hpl⟩, ?_⟩
    rcases hr with ⟨hr, hp⟩ | ⟨hr, hp⟩
    · exact ⟨a, by simp only [hpl, hr]; simp, hp ▸ hself⟩
    · exact ⟨b, by simp only [hpl, hr]; simp, hp ▸ hself⟩
  · exact ⟨hd, ⟨[], by simp⟩, findPlane_near hd hf⟩

theorem addAll_ok {epsN epsD : K} (h0 : 0 ≤ epsN) (h1 : 0 ≤ epsD) {pick : List Nat → Nat} :
    ∀ (ps : List (Plane K)) (db : PlaneDb K), DbOk db → (∀ p ∈ ps, UnitNormal p) →
      DbOk (addAll epsN epsD pick db ps).2 ∧ (∃ l, (addAll epsN epsD pick db ps).2.planes = db.planes ++ l) ∧
        ∀ (i : Nat) p, ps[i]? = some p → ∃ n m, (addAll epsN epsD pick db ps).1[i]? = some n ∧
          (addAll epsN epsD pick db ps).2.planes[n]? = some m ∧ Near epsN epsD p m.plane := by
  intro ps
  induction ps with
  | nil => intro db hd _; exact ⟨hd, ⟨[], by simp [addAll]⟩, fun i p h => by simp at h⟩
  | cons p ps ih =>
    intro db hd hu
    obtain ⟨hd1, ⟨l1, hl1⟩, m, hm, hn⟩ := addOrFind_ok h0 h1 (pick := pick) hd (hu p (by simp))
    obtain ⟨hd2, ⟨l2, hl2⟩, hi⟩ := ih _ hd1 fun q hq => hu q (by simp [hq])
    refine ⟨hd2, ⟨l1 ++ l2, ?_⟩, ?_⟩
    · simp only [addAll]; rw [hl2, hl1, List.append_assoc]
    · intro i q hq
      cases i with
      | zero =>
        simp at hq
        subst hq
        refine ⟨_, m, rfl, ?_, hn⟩
        simp only [addAll]
        rw [hl2, List.getElem?_append_left (List.getElem?_eq_some_iff.1 hm).1]
        exact hm
      | succ i =>
        exact hi i q (by simpa using hq)

/-- **C77.** For every sequence of planes asked for, the list of planes consists of pairs of opposite planes, the
even-numbered one facing the positive direction of its main axis and both having the type of that axis. -/
theorem planes_pairs {epsN epsD : K} (h0 : 0 ≤ epsN) (h1 : 0 ≤ epsD) (pick : List Nat → Nat) (ps : List (Plane K))
    (hu : ∀ p ∈ ps, UnitNormal p) :
    let planes := (addAll epsN epsD pick PlaneDb.empty ps).2.planes
    planes.length % 2 = 0 ∧
      ∀ (k : Nat) (a : MapPlane K), planes[2 * k]? = some a → ∃ b, planes[2 * k + 1]? = some b ∧
        (∀ x : Vec K, b.plane.distTo x = -(a.plane.distTo x)) ∧ b.type = a.type ∧ FacesAxis a.plane.normal a.type.axis := by
  intro planes
  obtain ⟨hd, -, -⟩ := addAll_ok h0 h1 (pick := pick) ps PlaneDb.empty dbOk_empty hu
  refine ⟨hd.even, ?_⟩
  intro k a ha
  have hlt := (List.getElem?_eq_some_iff.1 ha).1
  have hev := hd.even
  have hlt2 : 2 * k + 1 < planes.length := by
    have : planes.length % 2 = 0 := hev
    omega
  have hb := List.getElem?_eq_getElem hlt2
  obtain ⟨h2, h3, h4, -⟩ := hd.pairs k a _ ha hb
  refine ⟨_, hb, fun x => ?_, h3, h4⟩
  rw [h2]
  simp only [negPlane, negVec, Plane.distTo, dot]
  ring

/-- **C77.** The number returned for a plane refers to a plane that agrees with it up to the tolerance, whatever is
asked for afterwards. -/
theorem plane_numbers {epsN epsD : K} (h0 : 0 ≤ epsN) (h1 : 0 ≤ epsD) (pick : List Nat → Nat) (ps : List (Plane K))
    (hu : ∀ p ∈ ps, UnitNormal p) (i : Nat) (p : Plane K) (hi : ps[i]? = some p) :
    ∃ n m, (addAll epsN epsD pick PlaneDb.empty ps).1[i]? = some n ∧
      (addAll epsN epsD pick PlaneDb.empty ps).2.planes[n]? = some m ∧ Near epsN epsD p m.plane :=
  (addAll_ok h0 h1 ps PlaneDb.empty dbOk_empty hu).2.2 i p hi

/-- **C77.** A plane is added only if no plane of the list agrees with it up to the tolerance. -/
theorem plane_added_only_if_new {epsN epsD : K} (h0 : 0 ≤ epsN) (h1 : 0 ≤ epsD) (pick : List Nat → Nat)
    (hpick : PickOk pick) (ps : List (Plane K)) (hu : ∀ p ∈ ps, UnitNormal p) (p : Plane K) (m : MapPlane K)
    (hm : m ∈ (addAll epsN epsD pick PlaneDb.empty ps).2.planes) (hnear : Near epsN epsD p m.plane) :
    (addOrFind epsN epsD pick (addAll epsN epsD pick PlaneDb.empty ps).2 p).2.planes =
      (addAll epsN epsD pick PlaneDb.empty ps).2.planes := by
  obtain ⟨hd, -, -⟩ := addAll_ok h0 h1 (pick := pick) ps PlaneDb.empty dbOk_empty hu
  obtain ⟨e, he, hk⟩ := hd.covered m hm
  have hb : inBox epsN epsD p e.1 := by
    rw [hk]
    obtain ⟨h1, h2, h3, h4⟩ := hnear
    rw [abs_le] at h1 h2 h3 h4
    simp only [inBox, keyOf]
    refine ⟨?_, ?_, ?_, ?_, ?_, ?_, ?_, ?_⟩ <;> linarith [h1.1, h1.2, h2.1, h2.2, h3.1, h3.2, h4.1, h4.2]
  unfold addOrFind findPlane
  have hne : ((addAll epsN epsD pick PlaneDb.empty ps).2.hash.filter fun e => inBox epsN epsD p e.1).map (·.2) ≠ [] := by
    intro h
    rw [List.map_eq_nil_iff, List.filter_eq_nil_iff] at h
    exact h e he (by simpa using hb)
  simp only
  rw [List.getElem?_eq_getElem (hpick _ hne)]

/-- The conversion to `float` keeps 0, 1 and -1. -/
def Spec.RndOk (rnd : K → K) : Prop := rnd 0 = 0 ∧ rnd 1 = 1 ∧ rnd (-1) = -1

/-- A plane record of which the type is axial only if the normal is that axis. -/
def Spec.TypeOk (d : DPlane K) : Prop :=
  (d.type = .x → d.plane.normal = ⟨1, 0, 0⟩) ∧ (d.type = .y → d.plane.normal = ⟨0, 1, 0⟩) ∧
    (d.type = .z → d.plane.normal = ⟨0, 0, 1⟩)

theorem distFast_of_typeOk {d : DPlane K} (h : TypeOk d) (p : Vec K) : d.distFast p = d.plane.distTo p := by
  unfold DPlane.distFast
  obtain ⟨h1, h2, h3⟩ := h
  rcases ht : d.type with _ | _ | _ | _ | _ | _ <;> simp only
  · simp [Plane.distTo, h1 ht, dot]
  · simp [Plane.distTo, h2 ht, dot]
  · simp [Plane.distTo, h3 ht, dot]

theorem pair_typeOk {rnd : K → K} (hr : RndOk rnd) {a b : MapPlane K} (h : Pair a b) : TypeOk (toDPlane rnd a) := by
  obtain ⟨-, -, ⟨hpos, -⟩, hu, ht⟩ := h
  have haxial : ∀ i, a.type = axial i → a.plane.normal = axisVec i 1 := by
    intro i hi
    obtain ⟨-, ⟨j, hj, hc⟩ | ⟨hj, -⟩⟩ := mkPlane_cases hu
    · have hij : j = i := by
        rw [← ht, hi] at hj
        have := congrArg PType.axis hj
        rw [axial_axis, axial_axis] at this
        exact this.symm
      subst hij
      rcases hc with hc | hc
      · exact unit_axis hu j (Or.inl rfl) hc
      · rw [hi, axial_axis, hc] at hpos
        linarith
    · exfalso
      rw [← ht, hi] at hj
      unfold nearestType axial at hj
      split at hj <;> split at hj <;> (try split at hj) <;> (try split at hj) <;> cases hj
  obtain ⟨r0, r1, -⟩ := hr
  refine ⟨?_, ?_, ?_⟩ <;> intro h
  · simp [toDPlane, rndPlane, haxial 0 h, axisVec, r0, r1]
  · simp [toDPlane, rndPlane, haxial 1 h, axisVec, r0, r1]
  · simp [toDPlane, rndPlane, haxial 2 h, axisVec, r0, r1]

/-- **C77.** The shortcut that the tools use for the distance of a point from a plane of the file gives the distance
from that plane for every even-numbered plane, the only ones that nodes refer to. -/
theorem fast_distance {epsN epsD : K} (h0 : 0 ≤ epsN) (h1 : 0 ≤ epsD) (pick : List Nat → Nat) (ps : List (Plane K))
    (hu : ∀ p ∈ ps, UnitNormal p) {rnd : K → K} (hr : RndOk rnd) (k : Nat) (a : MapPlane K)
    (ha : (addAll epsN epsD pick PlaneDb.empty ps).2.planes[2 * k]? = some a) (x : Vec K) :
    (toDPlane rnd a).distFast x = (rndPlane rnd a.plane).distTo x := by
  obtain ⟨hd, -, -⟩ := addAll_ok h0 h1 (pick := pick) ps PlaneDb.empty dbOk_empty hu
  have hlt := (List.getElem?_eq_some_iff.1 ha).1
  have hev := hd.even
  have hb := List.getElem?_eq_getElem
    (show 2 * k + 1 < (addAll epsN epsD pick PlaneDb.empty ps).2.planes.length by omega)
  exact distFast_of_typeOk (pair_typeOk hr (hd.pairs k a _ ha hb)) x

/-- **C77, the limit.** For an odd-numbered plane the shortcut is wrong: the plane `-x = 0` has the type of the x axis,
and the point (1, 0, 0), behind it, is taken to be in front of it. -/
theorem fast_distance_odd_wrong :
    ∃ a : MapPlane ℚ, (addAll (1/200000) (1/20000) (fun _ => 0) PlaneDb.empty
        [(⟨⟨1, 0, 0⟩, 0⟩ : Plane ℚ)]).2.planes[1]? = some a ∧
      (toDPlane id a).distFast ⟨1, 0, 0⟩ = 1 ∧ a.plane.distTo ⟨1, 0, 0⟩ = -1 := by
  refine ⟨⟨⟨⟨-1, 0, 0⟩, 0⟩, .x, none⟩, by decide +kernel, by decide +kernel, by decide +kernel⟩

/-- Non-vacuity: three planes, the second one the opposite of the first, the third one slanted and facing down. -/
example :
    (addAll (1/200000) (1/20000) (fun _ => 0) PlaneDb.empty
        [(⟨⟨-1, 0, 0⟩, 3⟩ : Plane ℚ), ⟨⟨1, 0, 0⟩, -3⟩, ⟨⟨3/5, 0, -4/5⟩, 7⟩]).1 = [1, 0, 3] ∧
      (∀ p ∈ [(⟨⟨-1, 0, 0⟩, 3⟩ : Plane ℚ), ⟨⟨1, 0, 0⟩, -3⟩, ⟨⟨3/5, 0, -4/5⟩, 7⟩], UnitNormal p) ∧
      PickOk (fun _ => 0) ∧ RndOk (id : ℚ → ℚ) := by
  refine ⟨by decide +kernel, by unfold UnitNormal; decide +kernel, ?_, by simp [RndOk]⟩
  intro l hl
  exact List.length_pos_of_ne_nil hl

end Verif.Tree
