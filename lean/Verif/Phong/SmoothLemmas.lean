import Verif.Phong.Spec
import Mathlib.Data.List.Sort
import Mathlib.Tactic.Linarith
import Mathlib.Tactic.Ring
import Mathlib.Tactic.FieldSimp
import Mathlib.Tactic.NormNum

/-!
Lemmas on the sets of faces to smooth with.
-/

namespace Verif.Phong

open Verif.Geom

theorem mem_setInsert {i x : Nat} {l : List Nat} : x ∈ setInsert i l ↔ x = i ∨ x ∈ l := by
  induction l with
  | nil => simp [setInsert]
  | cons j js ih =>
    unfold setInsert
    split
    · simp
    · split
      · next h => subst h; simp
      · simp only [List.mem_cons, ih]; tauto

theorem sorted_setInsert {i : Nat} {l : List Nat} (h : l.Pairwise (· < ·)) :
    (setInsert i l).Pairwise (· < ·) := by
  induction l with
  | nil => simp [setInsert]
  | cons j js ih =>
    rw [List.pairwise_cons] at h
    unfold setInsert
    split
    · next hlt =>
      refine List.pairwise_cons.2 ⟨?_, List.pairwise_cons.2 h⟩
      intro x hx
      rcases List.mem_cons.1 hx with rfl | hx
      · exact hlt
      · exact lt_trans hlt (h.1 x hx)
    · split
      · exact List.pairwise_cons.2 h
      · next h1 h2 =>
        refine List.pairwise_cons.2 ⟨?_, ih h.2⟩
        intro x hx
        rcases mem_setInsert.1 hx with rfl | hx
        · omega
        · exact h.1 x hx

theorem foldl_insert (p : Nat → Bool) (l acc : List Nat) (x : Nat) :
    x ∈ l.foldl (fun acc j => if p j then setInsert j acc else acc) acc ↔ x ∈ acc ∨ (x ∈ l ∧ p x) := by
  induction l generalizing acc with
  | nil => simp
  | cons j js ih =>
    rw [List.foldl_cons, ih]
    by_cases h : p j
    · rw [if_pos h, mem_setInsert]
      constructor
      · rintro ((rfl | h') | h')
        · exact Or.inr ⟨List.mem_cons_self, h⟩
        · exact Or.inl h'
        · exact Or.inr ⟨List.mem_cons_of_mem _ h'.1, h'.2⟩
      · rintro (h' | ⟨h', hp⟩)
        · exact Or.inl (Or.inr h')
        · rcases List.mem_cons.1 h' with rfl | h'
          · exact Or.inl (Or.inl rfl)
          · exact Or.inr ⟨h', hp⟩
    · rw [if_neg h]
      constructor
      · rintro (h' | h')
        · exact Or.inl h'
        · exact Or.inr ⟨List.mem_cons_of_mem _ h'.1, h'.2⟩
      · rintro (h' | ⟨h', hp⟩)
        · exact Or.inl h'
        · rcases List.mem_cons.1 h' with rfl | h'
          · exact absurd hp h
          · exact Or.inr ⟨h', hp⟩

theorem foldl_sorted (p : Nat → Bool) (l acc : List Nat) (h : acc.Pairwise (· < ·)) :
    (l.foldl (fun acc j => if p j then setInsert j acc else acc) acc).Pairwise (· < ·) := by
  induction l generalizing acc with
  | nil => exact h
  | cons j js ih =>
    rw [List.foldl_cons]
    apply ih
    by_cases h' : p j
    · rw [if_pos h']; exact sorted_setInsert h
    · rw [if_neg h']; exact h

variable {K : Type} [Field K] [LinearOrder K]

/-- The test of the innermost loop. -/
def passes (o : Ops K) (b : Bsp K) (tex : Nat → Tex K) (i : Nat) (f : Face K) (j : Nat) : Bool :=
  decide (j ≠ i) && match b.faces[j]? with
    | none => false
    | some f2 => smoothWith o b tex f f2

theorem smoothFaces_eq (o : Ops K) (b : Bsp K) (tex : Nat → Tex K) (i : Nat) (f : Face K) :
    smoothFaces o b tex i f = if !wantsPhong (tex f.tex) then [] else if (tex f.tex).noPhong then []
      else f.verts.foldl (fun acc v => (vertFaces b.faces v).foldl
        (fun acc j => if passes o b tex i f j then setInsert j acc else acc) acc) [] := by
  unfold smoothFaces
  congr 1
  congr 1
  congr 1
  funext acc v
  congr 1
  funext acc j
  unfold passes
  by_cases h : j = i
  · simp [h]
  · rw [if_neg h]
    cases hb : b.faces[j]? with
    | none => simp
    | some g => simp [h]

theorem mem_vertFaces {faces : List (Face K)} {v j : Nat} :
    j ∈ vertFaces faces v ↔ ∃ g, faces[j]? = some g ∧ v ∈ g.verts := by
  unfold vertFaces
  simp only [List.mem_flatMap, List.mem_map, List.mem_filter, decide_eq_true_eq]
  constructor
  · rintro ⟨⟨g, k⟩, hk, u, ⟨hu, rfl⟩, rfl⟩
    exact ⟨g, List.mem_zipIdx_iff_getElem?.1 hk, hu⟩
  · rintro ⟨g, hg, hv⟩
    exact ⟨(g, j), List.mem_zipIdx_iff_getElem?.2 hg, v, ⟨hv, rfl⟩, rfl⟩

theorem mem_outer (o : Ops K) (b : Bsp K) (tex : Nat → Tex K) (i : Nat) (f : Face K) (vs acc : List Nat) (x : Nat) :
    x ∈ vs.foldl (fun acc v => (vertFaces b.faces v).foldl
      (fun acc j => if passes o b tex i f j then setInsert j acc else acc) acc) acc
      ↔ x ∈ acc ∨ ((∃ v ∈ vs, x ∈ vertFaces b.faces v) ∧ passes o b tex i f x) := by
  induction vs generalizing acc with
  | nil => simp
  | cons v vs ih =>
    rw [List.foldl_cons, ih, foldl_insert]
    simp only [List.mem_cons, exists_eq_or_imp]
    tauto

theorem sorted_outer (o : Ops K) (b : Bsp K) (tex : Nat → Tex K) (i : Nat) (f : Face K) (vs acc : List Nat)
    (h : acc.Pairwise (· < ·)) :
    (vs.foldl (fun acc v => (vertFaces b.faces v).foldl
      (fun acc j => if passes o b tex i f j then setInsert j acc else acc) acc) acc).Pairwise (· < ·) := by
  induction vs generalizing acc with
  | nil => exact h
  | cons v vs ih => rw [List.foldl_cons]; exact ih _ (foldl_sorted _ _ _ h)

theorem smoothFaces_sorted (o : Ops K) (b : Bsp K) (tex : Nat → Tex K) (i : Nat) (f : Face K) :
    (smoothFaces o b tex i f).Pairwise (· < ·) := by
  rw [smoothFaces_eq]
  split
  · simp
  · split
    · simp
    · exact sorted_outer o b tex i f _ _ List.Pairwise.nil

theorem mem_smoothFaces (o : Ops K) (b : Bsp K) (tex : Nat → Tex K) (i : Nat) (f : Face K) (j : Nat) :
    j ∈ smoothFaces o b tex i f ↔ wantsPhong (tex f.tex) = true ∧ (tex f.tex).noPhong = false ∧ j ≠ i ∧
      ∃ g, b.faces[j]? = some g ∧ (∃ v, v ∈ f.verts ∧ v ∈ g.verts) ∧ smoothWith o b tex f g = true := by
  rw [smoothFaces_eq]
  cases hw : wantsPhong (tex f.tex)
  · simp
  · cases hn : (tex f.tex).noPhong
    · rw [if_neg (by simp), if_neg (by simp), mem_outer]
      simp only [List.not_mem_nil, false_or, true_and, mem_vertFaces]
      unfold passes
      constructor
      · rintro ⟨⟨v, hv, g, hg, hvg⟩, hp⟩
        rw [hg] at hp
        simp only [Bool.and_eq_true, decide_eq_true_eq] at hp
        exact ⟨hp.1, g, hg, ⟨v, hv, hvg⟩, hp.2⟩
      · rintro ⟨hne, g, hg, ⟨v, hv, hvg⟩, hs⟩
        refine ⟨⟨v, hv, g, hg, hvg⟩, ?_⟩
        rw [hg]
        simp [hne, hs]
    · simp

theorem smoothWith_iff (o : Ops K) (b : Bsp K) (tex : Nat → Tex K) (f g : Face K) :
    smoothWith o b tex f g = true ↔ wantsPhong (tex g.tex) = true ∧ (tex g.tex).noPhong = false ∧
      (tex f.tex).native &&& b.mask = (tex g.tex).native &&& b.mask ∧
      phongValue (tex f.tex) = phongValue (tex g.tex) ∧
      dot f.norm g.norm ≥ o.cosDeg (min
        (if concave o b f g then concaveAngle (tex f.tex) else phongAngle (tex f.tex))
        (if concave o b f g then concaveAngle (tex g.tex) else phongAngle (tex g.tex))) := by
  unfold smoothWith mayPhong
  cases wantsPhong (tex g.tex) <;> cases (tex g.tex).noPhong <;> simp

end Verif.Phong
