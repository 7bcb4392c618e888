import Verif.Styles.ArghradSpec
import Verif.EntData.DictProps
import Mathlib.Data.List.Count

namespace Verif.Styles

open Verif.EntData (Str Dict get set find rename remove find_set find_append find_none keys keys_remove)

variable {F : Type} [Field F] [LinearOrder F]

theorem find_remove_ne (d : Dict) (k x : Str) (h : x ≠ k) : find (remove d k) x = find d x := by
  induction d with
  | nil => rfl
  | cons y d ih =>
    obtain ⟨a, w⟩ := y
    simp only [remove]
    by_cases hk : k = a
    · subst hk
      simp [find, h]
    · simp only [hk, if_false, find, ih]

theorem find_remove_once (d : Dict) (k : Str) (h : Once d k) : find (remove d k) k = none := by
  rw [find_none, keys_remove]
  intro hm
  have h1 := List.count_pos_iff.mpr hm
  rw [List.count_erase_self] at h1
  unfold Once at h
  have : List.count k (keys d) ≤ 1 := h
  omega

theorem find_rename_once (d : Dict) (a b k : Str) (hab : a ≠ b) (h : Once d a) : find (rename d a b) k =
    if k = a then none else if k = b then (find d b).or (find d a) else find d k := by
  unfold rename
  cases ha : find d a with
  | none =>
    by_cases h1 : k = a
    · simp [h1, ha]
    · by_cases h2 : k = b
      · subst h2
        simp [h1]
      · simp [h1, h2]
  | some v =>
    simp only [find_append]
    by_cases h1 : k = a
    · subst h1
      rw [find_remove_once d k h]
      simp [hab]
    · rw [find_remove_ne d a k h1]
      by_cases h2 : k = b
      · subst h2
        cases find d k <;> simp [h1]
      · cases find d k <;> simp [h1, h2]

theorem once_rename (d : Dict) (a b k : Str) (hk : k ≠ b) (h : Once d k) : Once (rename d a b) k := by
  unfold rename
  cases find d a with
  | none => exact h
  | some v =>
    unfold Once at *
    have e : ((remove d a ++ [(b, v)]).map Prod.fst) = (keys d).erase a ++ [b] := by
      rw [List.map_append, ← keys_remove]
      rfl
    rw [e, List.count_append]
    have : List.count k [b] = 0 := by rw [List.count_eq_zero]; simpa using hk
    have : List.count k ((keys d).erase a) ≤ List.count k (keys d) := List.Sublist.count_le _ List.erase_sublist
    have : List.count k (keys d) ≤ 1 := h
    omega

theorem once_of_none (d : Dict) (a b : Str) (h : find d b = none) : Once (rename d a b) b := by
  have hc : List.count b (keys d) = 0 := List.count_eq_zero.mpr ((find_none d b).mp h)
  unfold rename
  cases find d a with
  | none => unfold Once; show List.count b (keys d) ≤ 1; omega
  | some v =>
    unfold Once
    have e : ((remove d a ++ [(b, v)]).map Prod.fst) = (keys d).erase a ++ [b] := by
      rw [List.map_append, ← keys_remove]
      rfl
    rw [e, List.count_append]
    have : List.count b ((keys d).erase a) ≤ List.count b (keys d) := List.Sublist.count_le _ List.erase_sublist
    have : List.count b [b] ≤ 1 := by simp
    omega

theorem find_halveScale (env : Texts F) (d : Dict) (k : Str) : find (halveScale env d) k =
    if k = lit "_anglescale" then (find d (lit "_anglescale")).map (Halved env) else find d k := by
  unfold halveScale
  cases h : find d (lit "_anglescale") with
  | none =>
    by_cases hk : k = lit "_anglescale"
    · simp [hk, h]
    · simp [hk]
  | some v =>
    rw [find_set]
    by_cases hk : k = lit "_anglescale"
    · simp [hk, Halved, div_eq_mul_inv]
    · simp [hk]

theorem once_halveScale (env : Texts F) (d : Dict) (k : Str) (hk : Once d k) : Once (halveScale env d) k := by
  unfold halveScale
  cases h : find d (lit "_anglescale") with
  | none => exact hk
  | some v =>
    have hm : lit "_anglescale" ∈ keys d := by
      by_contra hn
      rw [(find_none d _).mpr hn] at h
      cases h
    unfold Once
    have := EntData.keys_set d (lit "_anglescale") (env.show_ (min 1 (max 0 (env.value v * (1 / 2)))))
    rw [if_pos hm] at this
    show List.count k (keys _) ≤ 1
    rw [this]
    exact hk

theorem lit_ne :
    lit "_falloff" ≠ lit "delay" ∧ lit "_distance" ≠ lit "delay" ∧ lit "_distance" ≠ lit "_falloff" ∧
    lit "_fade" ≠ lit "delay" ∧ lit "_fade" ≠ lit "_falloff" ∧ lit "_fade" ≠ lit "wait" ∧
    lit "_angfade" ≠ lit "delay" ∧ lit "_angfade" ≠ lit "_falloff" ∧ lit "_angfade" ≠ lit "wait" ∧
    lit "_angfade" ≠ lit "_anglescale" ∧
    lit "_angwait" ≠ lit "delay" ∧ lit "_angwait" ≠ lit "_falloff" ∧ lit "_angwait" ≠ lit "wait" ∧
    lit "_angwait" ≠ lit "_anglescale" ∧ lit "_falloff" ≠ lit "wait" ∧ lit "_falloff" ≠ lit "_anglescale" ∧
    lit "_distance" ≠ lit "wait" ∧ lit "_distance" ≠ lit "_anglescale" ∧ lit "_fade" ≠ lit "_anglescale" ∧
    lit "delay" ≠ lit "wait" ∧ lit "delay" ≠ lit "_anglescale" ∧ lit "wait" ≠ lit "_anglescale" := by
  decide +kernel

theorem lit_ne' :
    lit "_falloff" ≠ lit "_distance" ∧ lit "_falloff" ≠ lit "_fade" ∧ lit "_falloff" ≠ lit "_angfade" ∧
    lit "_falloff" ≠ lit "_angwait" ∧ lit "_distance" ≠ lit "_fade" ∧ lit "_distance" ≠ lit "_angfade" ∧
    lit "_distance" ≠ lit "_angwait" ∧ lit "_fade" ≠ lit "_angfade" ∧ lit "_fade" ≠ lit "_angwait" ∧
    lit "_angfade" ≠ lit "_angwait" := by
  decide +kernel

end Verif.Styles
