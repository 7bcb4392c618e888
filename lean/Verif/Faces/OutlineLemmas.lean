import Verif.Faces.OutlineSpec
import Mathlib.Algebra.BigOperators.Group.List.Basic
import Mathlib.Tactic.Abel
import Mathlib.Tactic.Ring

/-! Lemmas about outlines, through sums of an antisymmetric quantity over edges. -/

namespace Verif.Faces

open Spec

variable {V A : Type} [AddCommGroup A]

/-- A quantity on directed edges that changes its sign with the direction. -/
def Anti (φ : V → V → A) : Prop := ∀ u v, φ u v = - φ v u

def path (φ : V → V → A) : V → List V → A
  | _, [] => 0
  | a, b :: l => φ a b + path φ b l

def flow (φ : V → V → A) : List V → A
  | [] => 0
  | a :: l => path φ a (l ++ [a])

def flows (φ : V → V → A) (ps : List (List V)) : A := (ps.map (flow φ)).sum

theorem path_append (φ : V → V → A) (a b : V) (l r : List V) :
    path φ a (l ++ b :: r) = path φ a (l ++ [b]) + path φ b r := by
  induction l generalizing a with
  | nil => simp [path]
  | cons x l ih => simp only [List.cons_append, path, ih, add_assoc]

theorem path_edges (φ : V → V → A) (a b : V) (l : List V) :
    (((a :: l).zip (l ++ [b])).map fun e => φ e.1 e.2).sum = path φ a (l ++ [b]) := by
  induction l generalizing a with
  | nil => simp [path]
  | cons x l ih =>
    simp only [List.cons_append, List.zip_cons_cons, List.map_cons, List.sum_cons, path]
    rw [← ih x]

theorem flow_edges (φ : V → V → A) (p : List V) : ((edgesOf p).map fun e => φ e.1 e.2).sum = flow φ p := by
  cases p with
  | nil => simp [edgesOf, flow]
  | cons a l => exact path_edges φ a a l

theorem flows_edges (φ : V → V → A) (ps : List (List V)) :
    ((ps.flatMap edgesOf).map fun e => φ e.1 e.2).sum = flows φ ps := by
  induction ps with
  | nil => simp [flows]
  | cons p ps ih =>
    rw [List.flatMap_cons, List.map_append, List.sum_append, ih, flow_edges]
    simp [flows]

theorem flows_append (φ : V → V → A) (ps qs : List (List V)) : flows φ (ps ++ qs) = flows φ ps + flows φ qs := by
  simp [flows]

theorem flows_cons (φ : V → V → A) (p : List V) (qs : List (List V)) :
    flows φ (p :: qs) = flow φ p + flows φ qs := by
  simp [flows]

theorem flows_single (φ : V → V → A) (p : List V) : flows φ [p] = flow φ p := by simp [flows]

theorem flow_rotate (φ : V → V → A) (l1 l2 : List V) : flow φ (l1 ++ l2) = flow φ (l2 ++ l1) := by
  cases l1 with
  | nil => simp
  | cons a r1 =>
    cases l2 with
    | nil => simp
    | cons b r2 =>
      simp only [flow, List.cons_append, List.append_assoc]
      rw [path_append φ a b r1 (r2 ++ [a]), path_append φ b a r2 (r1 ++ [b])]
      abel

theorem flow_chord (φ : V → V → A) (h : Anti φ) (a c : V) (l1 l2 : List V) :
    flow φ (a :: (l1 ++ [c])) + flow φ (a :: c :: l2) = flow φ (a :: (l1 ++ c :: l2)) := by
  simp only [flow, List.cons_append, List.append_assoc, path]
  rw [path_append φ a c l1 ([] ++ [a]), path_append φ a c l1 (l2 ++ [a]), h a c]
  simp only [List.nil_append, path]
  abel

theorem flow_two (φ : V → V → A) (h : Anti φ) (a b : V) : flow φ [a, b] = 0 := by
  simp only [flow, List.cons_append, List.nil_append, path]
  rw [h a b]
  abel

theorem flow_map {U : Type} (φ : V → V → A) (g : U → V) (p : List U) :
    flow φ (p.map g) = flow (fun u v => φ (g u) (g v)) p := by
  have hp : ∀ (a : U) (l : List U), path φ (g a) (l.map g) = path (fun u v => φ (g u) (g v)) a l := by
    intro a l
    induction l generalizing a with
    | nil => rfl
    | cons b l ih => simp [path, ih]
  cases p with
  | nil => rfl
  | cons a l =>
    simp only [flow, List.map_cons]
    rw [← hp a (l ++ [a])]
    simp

theorem anti_comp {U : Type} {φ : V → V → A} (h : Anti φ) (g : U → V) : Anti (fun u v => φ (g u) (g v)) :=
  fun _ _ => h _ _

/-- Equal sums of all antisymmetric quantities mean the same region. -/
theorem sameRegion_of_flows {ps qs : List (List Nat)}
    (h : ∀ (A : Type) [AddCommGroup A] (φ : Nat → Nat → A), Anti φ → flows φ ps = flows φ qs)
    (hv : ∀ v, v ∈ ps.flatten → v ∈ qs.flatten) : SameRegion ps qs := by
  refine ⟨?_, ?_, hv⟩
  · intro u v
    have key : ∀ l : List (Nat × Nat), (l.map fun e =>
        ((if e = (u, v) then 1 else 0) - (if e = (v, u) then 1 else 0) : Int)).sum = l.count (u, v) - l.count (v, u) := by
      intro l
      induction l with
      | nil => simp
      | cons e l ih =>
        simp only [List.map_cons, List.sum_cons, ih, List.count_cons, beq_iff_eq]
        push_cast
        split <;> split <;> ring
    unfold net
    rw [← key, ← key]
    have hφ : Anti (fun a b : Nat => ((if (a, b) = (u, v) then 1 else 0) - (if (a, b) = (v, u) then 1 else 0) : Int)) := by
      intro a b
      simp only [Prod.mk.injEq]
      by_cases h1 : a = u <;> by_cases h2 : b = v <;> by_cases h3 : a = v <;> by_cases h4 : b = u <;>
        simp_all
    have := h Int _ hφ
    rw [← flows_edges, ← flows_edges] at this
    exact this
  · intro K _ x y
    have hφ : Anti (fun u v : Nat => x u * y v - x v * y u) := fun u v => by ring
    have := h K _ hφ
    rw [← flows_edges, ← flows_edges] at this
    exact this

/-! ## Edges and chords -/

def pathE : Nat → List Nat → List (Nat × Nat)
  | _, [] => []
  | a, b :: l => (a, b) :: pathE b l

theorem edgesOf_cons (a : Nat) (l : List Nat) : edgesOf (a :: l) = pathE a (l ++ [a]) := by
  have : ∀ (a b : Nat) (l : List Nat), (a :: l).zip (l ++ [b]) = pathE a (l ++ [b]) := by
    intro a b l
    induction l generalizing a with
    | nil => simp [pathE]
    | cons x l ih => simp [pathE, ← ih]
  exact this a a l

theorem pathE_append (a b : Nat) (l r : List Nat) : pathE a (l ++ b :: r) = pathE a (l ++ [b]) ++ pathE b r := by
  induction l generalizing a with
  | nil => simp [pathE]
  | cons x l ih => simp [pathE, ih]

theorem cutAlong_chord (a c : Nat) (l1 l2 : List Nat) :
    (edgesOf (a :: (l1 ++ [c])) ++ edgesOf (a :: c :: l2)).Perm
      (edgesOf (a :: (l1 ++ c :: l2)) ++ [(c, a)] ++ [(c, a)].map Prod.swap) := by
  have e1 : edgesOf (a :: (l1 ++ [c])) = pathE a (l1 ++ [c]) ++ [(c, a)] := by
    rw [edgesOf_cons, List.append_assoc, List.singleton_append, pathE_append]
    simp [pathE]
  have e2 : edgesOf (a :: c :: l2) = (a, c) :: pathE c (l2 ++ [a]) := by
    rw [edgesOf_cons]; simp [pathE]
  have e3 : edgesOf (a :: (l1 ++ c :: l2)) = pathE a (l1 ++ [c]) ++ pathE c (l2 ++ [a]) := by
    rw [edgesOf_cons, List.append_assoc, List.cons_append, pathE_append]
  rw [e1, e2, e3]
  simp only [List.append_assoc, List.map_cons, List.map_nil, Prod.swap_prod_mk]
  refine List.Perm.append_left _ ?_
  have : ([(c, a)] ++ (a, c) :: pathE c (l2 ++ [a])) = [(c, a), (a, c)] ++ pathE c (l2 ++ [a]) := by simp
  rw [this]
  refine List.Perm.trans List.perm_append_comm ?_
  simp

theorem cutAlong_flows {p : List Nat} {pieces : List (List Nat)} (h : CutAlong p pieces) (φ : Nat → Nat → A)
    (hφ : Anti φ) : flows φ pieces = flow φ p := by
  obtain ⟨chords, hp⟩ := h
  rw [← flows_edges, (hp.map _).sum_eq, List.map_append, List.map_append, List.sum_append, List.sum_append, flow_edges,
    add_assoc]
  have : ∀ l : List (Nat × Nat), (l.map fun e => φ e.1 e.2).sum +
      ((l.map Prod.swap).map fun e => φ e.1 e.2).sum = 0 := by
    intro l
    induction l with
    | nil => simp
    | cons e l ih =>
      simp only [List.map_cons, List.sum_cons, Prod.fst_swap, Prod.snd_swap]
      rw [hφ e.1 e.2]
      rw [add_add_add_comm, ih]
      simp
  rw [this, add_zero]

end Verif.Faces
