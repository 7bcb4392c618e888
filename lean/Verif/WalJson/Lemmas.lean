import Verif.WalJson.Spec

namespace Verif.WalJson

open Verif.EntData (Str)

theorem member_has {j v : Json} {key : String} (h : Has j key v) : member j key = some v := by
  obtain ⟨b, a, rfl, h⟩ := h
  unfold member
  simp only
  induction b with
  | nil => simp
  | cons kv b ih =>
    rw [List.cons_append, List.find?_cons_of_neg]
    · exact ih fun x hx => h x (List.mem_cons_of_mem _ hx)
    · simpa using h kv (by simp)

theorem member_lacks {j : Json} {key : String} (h : Lacks j key) : member j key = none := by
  unfold member
  split
  · rename_i l
    rw [Option.map_eq_none_iff, List.find?_eq_none]
    intro kv hkv
    simpa using h l rfl kv hkv
  · rfl

theorem orAll_bit (named : Str → BitVec 32) (i : Nat) : ∀ (l : List Json) (acc : BitVec 32),
    (orAll named l acc).getLsbD i = true ↔ acc.getLsbD i = true ∨ ∃ e ∈ l, BitOf named i e := by
  intro l
  induction l with
  | nil => intro acc; simp [orAll]
  | cons e l ih =>
    intro acc
    cases e <;> simp only [orAll, ih, List.mem_cons, exists_eq_or_imp, BitOf, BitVec.getLsbD_or, Bool.or_eq_true, false_or, or_assoc]

end Verif.WalJson
