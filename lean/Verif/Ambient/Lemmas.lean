import Verif.Ambient.Spec
import Mathlib.Tactic.Linarith
import Mathlib.Tactic.FinCases
import Mathlib.Tactic.NormNum
import Mathlib.Data.Fintype.Basic

/-!
Lemmas for C223.
-/

namespace Verif.Ambient

theorem readAt_ok {α : Type} {l : List α} {i : Nat} {x : α} (h : Outcome.readAt l i = .ok x) : l[i]? = some x := by
  unfold Outcome.readAt at h
  rcases hl : l[i]? with _ | y
  · rw [hl] at h; cases h
  · rw [hl] at h; cases h; rfl

theorem iprefix_prefix {name pre : Str} (h : iprefix name pre = true) : pre <+: name.map Char.toLower := by
  unfold iprefix at h
  have h' : (name.take pre.length).map Char.toLower = pre := by simpa using h
  rw [← h', List.map_take]
  exact List.take_prefix _ _

theorem iprefix_only {name p q : Str} (h : iprefix name p = true) (h1 : ¬ p <+: q) (h2 : ¬ q <+: p) : iprefix name q = false := by
  by_contra hc
  have hq : iprefix name q = true := by simpa using hc
  rcases List.prefix_or_prefix_of_prefix (iprefix_prefix h) (iprefix_prefix hq) with h | h
  · exact h1 h
  · exact h2 h

theorem soundOf_iff (o : Opts) (name : Str) (a : Fin 4) : soundOf o name = some a ↔ Spec.Makes o name a := by
  have ex : ∀ p q : Str, p ∈ ["sky".toList, "*water".toList, "*04water".toList, "*slime".toList, "*lava".toList] →
      q ∈ ["sky".toList, "*water".toList, "*04water".toList, "*slime".toList, "*lava".toList] → p ≠ q →
      iprefix name p = true → iprefix name q = false := by
    intro p q hp hq hne h
    have : ∀ p ∈ ["sky".toList, "*water".toList, "*04water".toList, "*slime".toList, "*lava".toList],
        ∀ q ∈ ["sky".toList, "*water".toList, "*04water".toList, "*slime".toList, "*lava".toList], p ≠ q → ¬ p <+: q ∧ ¬ q <+: p := by
      decide +kernel
    exact iprefix_only h (this p hp q hq hne).1 (this p hp q hq hne).2
  have e1 := ex "sky".toList
  have e2 := ex "*water".toList
  have e3 := ex "*04water".toList
  have e4 := ex "*slime".toList
  have e5 := ex "*lava".toList
  clear ex
  have n12 := e1 "*water".toList (by simp) (by simp) (by decide +kernel)
  have n13 := e1 "*04water".toList (by simp) (by simp) (by decide +kernel)
  have n14 := e1 "*slime".toList (by simp) (by simp) (by decide +kernel)
  have n15 := e1 "*lava".toList (by simp) (by simp) (by decide +kernel)
  have n23 := e2 "*04water".toList (by simp) (by simp) (by decide +kernel)
  have n24 := e2 "*slime".toList (by simp) (by simp) (by decide +kernel)
  have n25 := e2 "*lava".toList (by simp) (by simp) (by decide +kernel)
  have n34 := e3 "*slime".toList (by simp) (by simp) (by decide +kernel)
  have n35 := e3 "*lava".toList (by simp) (by simp) (by decide +kernel)
  have n45 := e4 "*lava".toList (by simp) (by simp) (by decide +kernel)
  clear e1 e2 e3 e4 e5
  unfold soundOf
  have m0 : Spec.Makes o name 0 ↔ ((iprefix name "*water".toList = true ∨ iprefix name "*04water".toList = true) ∧ o.noWater = false) ∨
         (iprefix name "*slime".toList = true ∧ o.noSlime = false) := Iff.rfl
  have m1 : Spec.Makes o name 1 ↔ iprefix name "sky".toList = true ∧ o.noSky = false := Iff.rfl
  have m2 : Spec.Makes o name 2 ↔ False := Iff.rfl
  have m3 : Spec.Makes o name 3 ↔ iprefix name "*lava".toList = true ∧ o.noLava = false := Iff.rfl
  have hm : Spec.Makes o name a ↔ (a = 0 ∧ Spec.Makes o name 0) ∨ (a = 1 ∧ Spec.Makes o name 1) ∨ (a = 3 ∧ Spec.Makes o name 3) := by
    constructor
    · intro h
      fin_cases a
      · exact Or.inl ⟨rfl, h⟩
      · exact Or.inr (Or.inl ⟨rfl, h⟩)
      · exact absurd h (by rw [show ((⟨2, by decide⟩ : Fin 4)) = 2 from rfl, m2]; exact id)
      · exact Or.inr (Or.inr ⟨rfl, h⟩)
    · rintro (⟨rfl, h⟩ | ⟨rfl, h⟩ | ⟨rfl, h⟩) <;> exact h
  rw [hm, m0, m1, m3]
  generalize iprefix name "sky".toList = b1 at *
  generalize iprefix name "*water".toList = b2 at *
  generalize iprefix name "*04water".toList = b3 at *
  generalize iprefix name "*slime".toList = b4 at *
  generalize iprefix name "*lava".toList = b5 at *
  generalize o.noSky = s1
  generalize o.noWater = s2
  generalize o.noSlime = s3
  generalize o.noLava = s4
  clear hm m0 m1 m2 m3
  cases b1 <;> cases b2 <;> cases b3 <;> cases b4 <;> cases b5 <;> simp at n12 n13 n14 n15 n23 n24 n25 n34 n35 n45 <;>
    cases s1 <;> cases s2 <;> cases s3 <;> cases s4 <;> simp <;> exact eq_comm

/-- Face number `m` of the list of faces of leafs makes a sound. -/
def FaceMakes (b : Bsp) (o : Opts) (m : Nat) (a : Fin 4) : Prop :=
  ∃ fnum f mt name, b.marks[m]? = some fnum ∧ b.faces[fnum]? = some f ∧ b.miptex[f.texinfo]? = some mt ∧
    0 ≤ mt ∧ b.names[mt.toNat]? = some name ∧ Spec.Makes o name a

/-- The distances: near if heard. -/
def Good (d : Fin 4 → ℚ) (P : Fin 4 → Prop) : Prop := ∀ a, (d a = 1 / 4 ∧ P a) ∨ (d a = 1020 ∧ ¬ P a)

theorem distance_eq (l : Leaf) (f : Face) : distance l f = 1 / 4 := rfl

theorem hearFace_good {b : Bsp} {o : Opts} {l : Leaf} {m : Nat} {d d' : Fin 4 → ℚ} {P : Fin 4 → Prop} (hg : Good d P)
    (h : hearFace b o l m d = .ok d') : Good d' (fun a => P a ∨ FaceMakes b o m a) := by
  unfold hearFace at h
  obtain ⟨fnum, h1, h⟩ := Outcome.bind_eq_ok.1 h
  rcases hf : b.faces[fnum]? with _ | f
  · rw [hf] at h; cases h
  rw [hf] at h
  obtain ⟨mt, h2, h⟩ := Outcome.bind_eq_ok.1 h
  by_cases hmt : mt < 0
  · rw [if_pos hmt] at h; cases h
  rw [if_neg hmt] at h
  obtain ⟨name, h3, h⟩ := Outcome.bind_eq_ok.1 h
  have r1 := readAt_ok h1
  have r2 := readAt_ok h2
  have r3 := readAt_ok h3
  have hfm : ∀ a, FaceMakes b o m a ↔ Spec.Makes o name a := by
    intro a
    constructor
    · rintro ⟨fn, f', mt', nm, e1, e2, e3, _, e5, e6⟩
      rw [r1] at e1; cases e1
      rw [hf] at e2; cases e2
      rw [r2] at e3; cases e3
      rw [r3] at e5; cases e5
      exact e6
    · intro hm
      exact ⟨fnum, f, mt, name, r1, hf, r2, by omega, r3, hm⟩
  intro a
  rcases hs : soundOf o name with _ | s
  · rw [hs] at h
    cases h
    have : ¬ FaceMakes b o m a := by
      rw [hfm, ← soundOf_iff, hs]; simp
    rcases hg a with ⟨g1, g2⟩ | ⟨g1, g2⟩
    · exact Or.inl ⟨g1, Or.inl g2⟩
    · exact Or.inr ⟨g1, fun c => c.elim g2 this⟩
  · rw [hs] at h
    dsimp only at h
    injection h with h
    subst h
    rw [distance_eq]
    by_cases ha : a = s
    · subst ha
      have hm : FaceMakes b o m a := by rw [hfm, ← soundOf_iff, hs]
      left
      refine ⟨?_, Or.inr hm⟩
      rcases hg a with ⟨g1, g2⟩ | ⟨g1, g2⟩
      · rw [g1, if_neg (by norm_num)]; exact g1
      · rw [g1, if_pos (by norm_num), if_pos rfl]
    · have hm : ¬ FaceMakes b o m a := by
        rw [hfm, ← soundOf_iff, hs]
        intro c; injection c with c; exact ha c.symm
      have hv : (if (1 / 4 : ℚ) < d s then fun j => if j = s then 1 / 4 else d j else d) a = d a := by
        split_ifs
        · exact if_neg ha
        · rfl
      rw [hv]
      rcases hg a with ⟨g1, g2⟩ | ⟨g1, g2⟩
      · exact Or.inl ⟨g1, Or.inl g2⟩
      · exact Or.inr ⟨g1, fun c => c.elim g2 hm⟩

theorem Good.congr {d : Fin 4 → ℚ} {P Q : Fin 4 → Prop} (h : Good d P) (hpq : ∀ a, P a ↔ Q a) : Good d Q := by
  intro a
  rw [← hpq a]
  exact h a

theorem hearFaces_good {b : Bsp} {o : Opts} {l : Leaf} {ms : List Nat} {d d' : Fin 4 → ℚ} {P : Fin 4 → Prop} (hg : Good d P)
    (h : hearFaces b o l ms d = .ok d') : Good d' (fun a => P a ∨ ∃ m ∈ ms, FaceMakes b o m a) := by
  induction ms generalizing d P with
  | nil =>
    cases h
    exact hg.congr (fun a => by simp)
  | cons m t ih =>
    rw [hearFaces] at h
    obtain ⟨d1, h1, h⟩ := Outcome.bind_eq_ok.1 h
    refine (ih (hearFace_good hg h1) h).congr (fun a => ?_)
    simp [or_assoc]

theorem emits_iff (b : Bsp) (o : Opts) (hit : Leaf) (a : Fin 4) :
    (∃ m ∈ (List.range hit.num).map (hit.first + ·), FaceMakes b o m a) ↔ Spec.Emits b o hit a := by
  constructor
  · rintro ⟨m, hm, h⟩
    obtain ⟨k, hk, rfl⟩ := List.mem_map.1 hm
    exact ⟨k, List.mem_range.1 hk, h⟩
  · rintro ⟨k, hk, h⟩
    exact ⟨hit.first + k, List.mem_map.2 ⟨k, List.mem_range.2 hk, rfl⟩, h⟩

theorem sees_ok {v : Vis} {i : Nat} {l : Leaf} {j : Nat} {s : Bool} (h : sees v i l j = .ok s) : s = true ↔ Spec.Sees v i l j := by
  unfold sees at h
  dsimp only at h
  unfold Spec.Sees
  generalize (if v.clusters = true then l.cluster else (i : Int)) * v.rowBytes + (j / 8 : Nat) = at_ at h ⊢
  by_cases hn : at_ < 0
  · rw [if_pos hn] at h; cases h
  rw [if_neg hn] at h
  obtain ⟨x, hx, h⟩ := Outcome.bind_eq_ok.1 h
  cases h
  have hx' := readAt_ok hx
  constructor
  · intro ht
    exact ⟨x, at_.toNat, by omega, hx', ht⟩
  · rintro ⟨y, row, hr, hy, ht⟩
    have : row = at_.toNat := by omega
    rw [this, hx'] at hy
    cases hy
    exact ht

theorem hearLeafs_good {b : Bsp} {o : Opts} {v : Vis} {leafs : List Leaf} {i : Nat} {l : Leaf} {js : List Nat} {d d' : Fin 4 → ℚ}
    {P : Fin 4 → Prop} (hg : Good d P) (h : hearLeafs b o v leafs i l js d = .ok d') :
    Good d' (fun a => P a ∨ ∃ j ∈ js, Spec.Sees v i l j ∧ ∃ hit, leafs[j + 1]? = some hit ∧ Spec.Emits b o hit a) := by
  induction js generalizing d P with
  | nil =>
    cases h
    exact hg.congr (fun a => by simp)
  | cons j t ih =>
    rw [hearLeafs] at h
    obtain ⟨s, hs, h⟩ := Outcome.bind_eq_ok.1 h
    have hsee := sees_ok hs
    by_cases hf : s = false
    · rw [if_pos hf] at h
      have hns : ¬ Spec.Sees v i l j := by rw [← hsee, hf]; simp
      refine (ih hg h).congr (fun a => ?_)
      simp [hns]
    · rw [if_neg hf] at h
      have hys : Spec.Sees v i l j := by rw [← hsee]; simpa using hf
      obtain ⟨hit, hh, h⟩ := Outcome.bind_eq_ok.1 h
      obtain ⟨d1, h1, h⟩ := Outcome.bind_eq_ok.1 h
      have hh' := readAt_ok hh
      refine (ih (hearFaces_good hg h1) h).congr (fun a => ?_)
      simp only [emits_iff]
      constructor
      · rintro ((h | h) | ⟨k, hk, h⟩)
        · exact Or.inl h
        · exact Or.inr ⟨j, by simp, hys, hit, hh', h⟩
        · exact Or.inr ⟨k, by simp [hk], h⟩
      · rintro (h | ⟨k, hk, h1, hit2, h2, h3⟩)
        · exact Or.inl (Or.inl h)
        · rcases List.mem_cons.1 hk with rfl | hk
          · rw [hh'] at h2; cases h2
            exact Or.inl (Or.inr h3)
          · exact Or.inr ⟨k, hk, h1, hit2, h2, h3⟩

theorem not_hears_slime (b : Bsp) (o : Opts) (v : Vis) (leafs : List Leaf) (i : Nat) (l : Leaf) : ¬ Spec.Hears b o v leafs i l 2 := by
  rintro ⟨_, _, _, _, _, _, _, _, _, _, _, _, _, _, _, _, h⟩
  exact h

open Classical in
/-- The levels a leaf should get. -/
noncomputable def wanted (b : Bsp) (o : Opts) (v : Vis) (leafs : List Leaf) (i : Nat) (l : Leaf) : Fin 4 → Nat :=
  fun a => if Spec.Hears b o v leafs i l a then 255 else 0

theorem level_good {d : Fin 4 → ℚ} {P : Fin 4 → Prop} (hg : Good d P) (h2 : ¬ P 2) (a : Fin 4) :
    (P a → level d a = 255) ∧ (¬ P a → level d a = 0) := by
  have hd2 : d 2 = 1020 := by
    rcases hg 2 with ⟨_, h⟩ | ⟨h, _⟩
    · exact absurd h h2
    · exact h
  unfold level
  constructor
  · intro hp
    rcases hg a with ⟨h, _⟩ | ⟨_, h⟩
    · dsimp only
      rw [h, if_pos (by norm_num)]
      norm_num
      rfl
    · exact absurd hp h
  · intro hp
    rcases hg a with ⟨_, h⟩ | ⟨h, _⟩
    · exact absurd h hp
    · dsimp only
      rw [h, if_neg (by norm_num), hd2, if_pos (by norm_num)]
      norm_num

theorem calcLeaf_ok {b : Bsp} {o : Opts} {v : Vis} {leafs r : List Leaf} {i : Nat} (h : calcLeaf b o v leafs i = .ok r) :
    ∃ l, leafs[i + 1]? = some l ∧ r = leafs.set (i + 1) { l with ambient := wanted b o v leafs i l } := by
  unfold calcLeaf at h
  obtain ⟨l, hl, h⟩ := Outcome.bind_eq_ok.1 h
  obtain ⟨d, hd, h⟩ := Outcome.bind_eq_ok.1 h
  refine ⟨l, readAt_ok hl, ?_⟩
  have hg : Good (fun _ => (1020 : ℚ)) (fun _ => False) := fun a => Or.inr ⟨rfl, id⟩
  have hg' : Good d (Spec.Hears b o v leafs i l) := (hearLeafs_good hg hd).congr (fun a => by
    unfold Spec.Hears
    simp only [false_or, List.mem_range])
  have hlev : level d = wanted b o v leafs i l := by
    funext a
    unfold wanted
    split_ifs with hp
    · exact (level_good hg' (not_hears_slime _ _ _ _ _ _) a).1 hp
    · exact (level_good hg' (not_hears_slime _ _ _ _ _ _) a).2 hp
  unfold Outcome.writeAt at h
  split_ifs at h
  cases h
  rw [hlev]

/-- The leafs agree but for the levels. -/
def Same (x y : List Leaf) : Prop := ∀ k : Nat, (x[k]?).map (fun l : Leaf => { l with ambient := fun _ => 0 }) = (y[k]?).map (fun l : Leaf => { l with ambient := fun _ => 0 })

theorem Same.get {x y : List Leaf} (h : Same x y) {k : Nat} {l : Leaf} (hl : y[k]? = some l) : ∃ am, x[k]? = some { l with ambient := am } := by
  have := h k
  rw [hl] at this
  rcases hx : x[k]? with _ | l'
  · rw [hx] at this; cases this
  · rw [hx] at this
    injection this with this
    refine ⟨l'.ambient, ?_⟩
    congr 1
    obtain ⟨a1, a2, a3, a4, a5, a6⟩ := l'
    obtain ⟨b1, b2, b3, b4, b5, b6⟩ := l
    injection this with e1 e2 e3 e4 e5
    subst e1 e2 e3 e4 e5
    rfl

theorem Same.symm {x y : List Leaf} (h : Same x y) : Same y x := fun k => (h k).symm

theorem hears_congr {b : Bsp} {o : Opts} {v : Vis} {x y : List Leaf} (h : Same x y) (i : Nat) (l : Leaf) (am : Fin 4 → Nat) (a : Fin 4) :
    Spec.Hears b o v x i { l with ambient := am } a ↔ Spec.Hears b o v y i l a := by
  constructor
  · rintro ⟨j, hj, hs, hit, hh, he⟩
    obtain ⟨am', h'⟩ := h.symm.get hh
    exact ⟨j, hj, hs, _, h', he⟩
  · rintro ⟨j, hj, hs, hit, hh, he⟩
    obtain ⟨am', h'⟩ := h.get hh
    exact ⟨j, hj, hs, _, h', he⟩

theorem wanted_congr {b : Bsp} {o : Opts} {v : Vis} {x y : List Leaf} (h : Same x y) (i : Nat) (l : Leaf) (am : Fin 4 → Nat) :
    wanted b o v x i { l with ambient := am } = wanted b o v y i l := by
  funext a
  unfold wanted
  by_cases hh : Spec.Hears b o v y i l a
  · rw [if_pos hh, if_pos ((hears_congr h i l am a).2 hh)]
  · rw [if_neg hh, if_neg (fun c => hh ((hears_congr h i l am a).1 c))]

theorem same_set {x : List Leaf} {k : Nat} {l : Leaf} (hl : x[k]? = some l) (am : Fin 4 → Nat) :
    Same (x.set k { l with ambient := am }) x := by
  intro j
  rw [List.getElem?_set]
  have hk : k < x.length := by
    by_contra hc
    rw [List.getElem?_eq_none (by omega)] at hl; cases hl
  by_cases hj : k = j
  · subst hj
    rw [if_pos rfl, if_pos hk, hl]; rfl
  · rw [if_neg hj]

/-- The rounds in any order: those leafs get their levels. -/
theorem calcLeafs_ok {b : Bsp} {o : Opts} {v : Vis} {order : List Nat} {leafs r : List Leaf} (h : calcLeafs b o v order leafs = .ok r) :
    ∀ k, r[k]? = (leafs[k]?).map fun l => if 1 ≤ k ∧ k - 1 ∈ order then { l with ambient := wanted b o v leafs (k - 1) l } else l := by
  induction order generalizing leafs with
  | nil =>
    cases h
    intro k
    simp
  | cons i t ih =>
    rw [calcLeafs] at h
    obtain ⟨m, hm, h⟩ := Outcome.bind_eq_ok.1 h
    obtain ⟨l0, hl0, rfl⟩ := calcLeaf_ok hm
    have hs := same_set hl0 (wanted b o v leafs i l0)
    intro k
    rw [ih h k]
    rcases hk : leafs[k]? with _ | l
    · have : (leafs.set (i + 1) { l0 with ambient := wanted b o v leafs i l0 })[k]? = none := by
        have := hs k
        rw [hk] at this
        rcases hx : (leafs.set (i + 1) { l0 with ambient := wanted b o v leafs i l0 })[k]? with _ | y
        · rfl
        · rw [hx] at this; cases this
      rw [this]; rfl
    · have hset : (leafs.set (i + 1) { l0 with ambient := wanted b o v leafs i l0 })[k]? =
          some (if k = i + 1 then { l with ambient := wanted b o v leafs i l } else l) := by
        rw [List.getElem?_set]
        by_cases hki : i + 1 = k
        · subst hki
          rw [hl0] at hk
          cases hk
          have hlt : i + 1 < leafs.length := by
            by_contra hc
            rw [List.getElem?_eq_none (by omega)] at hl0; cases hl0
          rw [if_pos rfl, if_pos hlt, if_pos rfl]
        · rw [if_neg hki, if_neg (fun c => hki c.symm), hk]
      rw [hset]
      simp only [Option.map_some]
      congr 1
      by_cases hki : k = i + 1
      · subst hki
        rw [if_pos rfl, if_pos (⟨by omega, by simp⟩ : 1 ≤ i + 1 ∧ i + 1 - 1 ∈ i :: t)]
        have hc := wanted_congr (b := b) (o := o) (v := v) hs i l (wanted b o v leafs i l)
        by_cases hin : 1 ≤ i + 1 ∧ i + 1 - 1 ∈ t
        · rw [if_pos hin]
          simp only [Nat.add_sub_cancel]
          rw [hc]
        · rw [if_neg hin]; rfl
      · rw [if_neg hki]
        have hc := wanted_congr (b := b) (o := o) (v := v) hs (k - 1) l l.ambient
        by_cases hin : 1 ≤ k ∧ k - 1 ∈ t
        · rw [if_pos hin, if_pos ⟨hin.1, List.mem_cons_of_mem _ hin.2⟩]
          congr 1
        · rw [if_neg hin, if_neg]
          rintro ⟨h1, h2⟩
          rcases List.mem_cons.1 h2 with h2 | h2
          · omega
          · exact hin ⟨h1, h2⟩

theorem silence_ok {order : List Nat} {leafs r : List Leaf} (h : silence order leafs = .ok r) :
    ∀ k, r[k]? = (leafs[k]?).map fun l => if 1 ≤ k ∧ k - 1 ∈ order then { l with ambient := fun _ => 0 } else l := by
  induction order generalizing leafs with
  | nil =>
    cases h
    intro k
    simp
  | cons i t ih =>
    rw [silence] at h
    obtain ⟨l0, hl0, h⟩ := Outcome.bind_eq_ok.1 h
    obtain ⟨m, hm, h⟩ := Outcome.bind_eq_ok.1 h
    have hl0' := readAt_ok hl0
    unfold Outcome.writeAt at hm
    split_ifs at hm with hlt
    cases hm
    intro k
    rw [ih h k, List.getElem?_set]
    by_cases hki : i + 1 = k
    · subst hki
      rw [if_pos rfl, if_pos hlt, hl0']
      simp
    · rw [if_neg hki]
      have : (1 ≤ k ∧ k - 1 ∈ i :: t) ↔ (1 ≤ k ∧ k - 1 ∈ t) := by
        rw [List.mem_cons]
        constructor
        · rintro ⟨a, b | b⟩
          · omega
          · exact ⟨a, b⟩
        · rintro ⟨a, b⟩; exact ⟨a, Or.inr b⟩
      simp only [this]

/-- Whether and how the rounds end does not depend on the levels already there. -/
theorem hearLeafs_congr (b : Bsp) (o : Opts) (v : Vis) {x y : List Leaf} (h : Same x y) (i : Nat) (l : Leaf) (am : Fin 4 → Nat)
    (js : List Nat) (d : Fin 4 → ℚ) : hearLeafs b o v x i { l with ambient := am } js d = hearLeafs b o v y i l js d := by
  have hfs : ∀ (ms : List Nat) (d : Fin 4 → ℚ), hearFaces b o { l with ambient := am } ms d = hearFaces b o l ms d := by
    intro ms
    induction ms with
    | nil => intro d; rfl
    | cons m t ih =>
      intro d
      rw [hearFaces, hearFaces]
      have : hearFace b o { l with ambient := am } m d = hearFace b o l m d := rfl
      rw [this]
      congr 1
      funext d
      exact ih d
  induction js generalizing d with
  | nil => rfl
  | cons j t ih =>
    rw [hearLeafs, hearLeafs]
    have : sees v i { l with ambient := am } j = sees v i l j := rfl
    rw [this]
    congr 1
    funext s
    by_cases hs : s = false
    · rw [if_pos hs, if_pos hs, ih]
    · rw [if_neg hs, if_neg hs]
      rcases hy : y[j + 1]? with _ | hit
      · have hx : x[j + 1]? = none := by
          have := h (j + 1)
          rw [hy] at this
          rcases hx : x[j + 1]? with _ | z
          · rfl
          · rw [hx] at this; cases this
        rw [Outcome.readAt, Outcome.readAt, hx, hy]
        rfl
      · obtain ⟨am', hx⟩ := h.get hy
        rw [Outcome.readAt, Outcome.readAt, hx, hy]
        simp only [Outcome.ok_bind]
        rw [hfs]
        congr 1
        funext d
        exact ih d

end Verif.Ambient
