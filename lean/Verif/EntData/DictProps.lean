import Verif.EntData.Dict
import Mathlib.Data.List.Nodup

/-! Entity dictionaries behave like ordered maps: C17. -/

namespace Verif.EntData

/-! ### Specification: a finite map -/

/-- What each call does to the abstract map. Renaming moves the value. -/
def Spec.apply (m : Str → Option Str) : Op → (Str → Option Str)
  | .set k v => fun x => if x = k then some v else m x
  | .remove k => fun x => if x = k then none else m x
  | .rename a b =>
    match m a with
    | none => m
    | some v => fun x => if x = b then some v else if x = a then none else m x

/-- No rename in the history hits a key that is already present (renaming a key to itself is fine). -/
def Spec.FreshRenames : (Str → Option Str) → List Op → Prop
  | _, [] => True
  | m, op :: ops =>
    (match op with
     | .rename a b => a = b ∨ m b = none ∨ m a = none
     | _ => True) ∧ FreshRenames (Spec.apply m op) ops

/-! ### Helper lemmas -/

/-- The keys in order. -/
abbrev keys (d : Dict) : List Str := d.map Prod.fst

theorem find_isSome (d : Dict) (k : Str) : (find d k).isSome ↔ k ∈ keys d := by
  induction d with
  | nil => simp [find]
  | cons x d ih =>
    obtain ⟨a, v⟩ := x
    simp only [find, keys, List.map_cons, List.mem_cons]
    split
    · rename_i h; simp [h]
    · rename_i h; rw [ih]; simp [h]

theorem find_none (d : Dict) (k : Str) : find d k = none ↔ k ∉ keys d := by
  rw [← find_isSome]; simp

theorem find_set (d : Dict) (k v x : Str) : find (set d k v) x = if x = k then some v else find d x := by
  induction d with
  | nil => simp [set, find]
  | cons y d ih =>
    obtain ⟨a, w⟩ := y
    simp only [set]
    by_cases h : k = a
    · simp only [h, if_true, find]
      split <;> rfl
    · simp only [h, if_false, find, ih]
      by_cases hx : x = a
      · rw [if_pos hx, if_pos hx, if_neg (by rw [hx]; exact Ne.symm h)]
      · simp [hx]

theorem keys_set (d : Dict) (k v : Str) : keys (set d k v) = if k ∈ keys d then keys d else keys d ++ [k] := by
  induction d with
  | nil => simp [set]
  | cons y d ih =>
    obtain ⟨a, w⟩ := y
    simp only [set]
    by_cases h : k = a
    · simp [h]
    · simp only [h, if_false, keys, List.map_cons, List.mem_cons, false_or]
      simp only [keys] at ih
      rw [ih]
      split <;> simp

theorem keys_remove (d : Dict) (k : Str) : keys (remove d k) = (keys d).erase k := by
  induction d with
  | nil => simp [remove]
  | cons y d ih =>
    obtain ⟨a, w⟩ := y
    simp only [remove]
    by_cases h : k = a
    · simp [h, List.erase_cons_head]
    · simp only [h, if_false, keys, List.map_cons]
      rw [List.erase_cons_tail (by simpa using Ne.symm h)]
      simp only [keys] at ih
      rw [ih]

theorem find_remove (d : Dict) (hd : (keys d).Nodup) (k x : Str) :
    find (remove d k) x = if x = k then none else find d x := by
  induction d with
  | nil => simp [remove, find]
  | cons y d ih =>
    obtain ⟨a, w⟩ := y
    simp only [keys, List.map_cons, List.nodup_cons] at hd
    simp only [remove]
    by_cases h : k = a
    · simp only [h, if_true, find]
      by_cases hx : x = a
      · rw [if_pos hx, hx, find_none]; exact hd.1
      · simp [hx]
    · simp only [h, if_false, find, ih hd.2]
      by_cases hx : x = a
      · rw [if_pos hx, if_pos hx, if_neg (by rw [hx]; exact Ne.symm h)]
      · simp [hx]

theorem find_append (d : Dict) (k v x : Str) :
    find (d ++ [(k, v)]) x = match find d x with
      | some w => some w
      | none => if x = k then some v else none := by
  induction d with
  | nil => simp [find]
  | cons y d ih =>
    obtain ⟨a, w⟩ := y
    simp only [List.cons_append, find, ih]
    by_cases hx : x = a
    · simp [hx]
    · simp [hx]

/-! ### C17 -/

/-- **C17**, partial: after any history of calls from any dictionary with distinct keys, in which no
rename hits a different key that is already present, the keys are distinct and looking up any key gives
exactly what the abstract map holds. Missing: renames onto a present key, for which the property is
false (`rename_leaves_duplicate`). -/
theorem dict_is_a_map_partial (ops : List Op) : ∀ (d : Dict), (keys d).Nodup →
    Spec.FreshRenames (find d) ops →
    (keys (ops.foldl Op.apply d)).Nodup ∧
    ∀ k, find (ops.foldl Op.apply d) k = ops.foldl Spec.apply (find d) k := by
  induction ops with
  | nil => intro d hd _; exact ⟨hd, fun _ => rfl⟩
  | cons op ops ih =>
    intro d hd hf
    simp only [List.foldl_cons]
    obtain ⟨hop, hrest⟩ := hf
    have key : (keys (op.apply d)).Nodup ∧ find (op.apply d) = Spec.apply (find d) op := by
      cases op with
      | set k v =>
        refine ⟨?_, funext fun x => find_set d k v x⟩
        simp only [Op.apply]
        rw [keys_set]
        split
        · exact hd
        · rename_i hk
          exact List.nodup_append.2 ⟨hd, by simp, fun a ha b hb => by
            simp at hb; subst hb; exact fun e => hk (e ▸ ha)⟩
      | remove k =>
        refine ⟨?_, funext fun x => find_remove d hd k x⟩
        simp only [Op.apply]
        rw [keys_remove]
        exact hd.erase _
      | rename a b =>
        simp only [Op.apply, rename, Spec.apply]
        cases ha : find d a with
        | none => exact ⟨hd, rfl⟩
        | some v =>
          simp only
          have hb : a = b ∨ b ∉ keys d := by
            rcases hop with h | h | h
            · exact .inl h
            · exact .inr ((find_none d b).1 h)
            · simp [ha] at h
          have hbr : b ∉ (keys d).erase a := by
            rcases hb with rfl | hb
            · exact hd.not_mem_erase
            · exact fun h => hb (List.mem_of_mem_erase h)
          refine ⟨?_, ?_⟩
          · simp only [keys, List.map_append, List.map_cons, List.map_nil]
            have := keys_remove d a
            simp only [keys] at this
            rw [this]
            refine List.nodup_append.2 ⟨hd.erase _, by simp, ?_⟩
            intro x hx y hy
            simp at hy; subst hy
            exact fun e => hbr (e ▸ hx)
          · funext x
            rw [find_append, find_remove d hd]
            by_cases hxb : x = b
            · subst hxb
              have : (if x = a then none else find d x) = none := by
                rcases hb with rfl | hb
                · simp
                · split
                  · rfl
                  · exact (find_none d x).2 hb
              simp [this]
            · simp only [hxb, if_false]
              by_cases hxa : x = a
              · simp [hxa]
              · simp only [hxa, if_false]
                cases find d x <;> rfl
    rw [← key.2] at hrest
    obtain ⟨h1, h2⟩ := ih (op.apply d) key.1 hrest
    refine ⟨h1, fun k => ?_⟩
    rw [h2 k, key.2]

/-- **C17**: `get` and `has` read off the map: the value or the empty string, and presence. -/
theorem get_has_spec (d : Dict) (k : Str) :
    (has d k = true ↔ k ∈ keys d) ∧ (∀ v, find d k = some v → get d k = v) ∧
    (k ∉ keys d → get d k = []) := by
  refine ⟨by simp [has, find_isSome], fun v h => by simp [get, h], fun h => ?_⟩
  simp [get, (find_none d k).2 h]

/-- **C17**, order: setting keeps the position of a present key and appends a new one; removing keeps
the order of the others; renaming appends the new name at the end. -/
theorem order_of_keys (d : Dict) (k v a b : Str) :
    keys (set d k v) = (if k ∈ keys d then keys d else keys d ++ [k]) ∧
    keys (remove d k) = (keys d).erase k ∧
    (a ∈ keys d → keys (rename d a b) = (keys d).erase a ++ [b]) ∧
    (a ∉ keys d → rename d a b = d) := by
  refine ⟨keys_set d k v, keys_remove d k, fun ha => ?_, fun ha => ?_⟩
  · obtain ⟨w, hw⟩ := Option.isSome_iff_exists.1 ((find_isSome d a).2 ha)
    simp only [rename, hw]
    have := keys_remove d a
    simp only [keys] at this ⊢
    simp [this]
  · simp [rename, (find_none d a).2 ha]

/-- **C17** fails for renaming onto a present key: the key is then present twice, and reading it
returns its old value instead of the renamed one. -/
theorem rename_leaves_duplicate :
    ∃ (d : Dict) (a b : Str), (keys d).Nodup ∧ a ≠ b ∧ ¬ (keys (rename d a b)).Nodup ∧
      get (rename d a b) b ≠ get d a := by
  refine ⟨[([97], [49]), ([98], [50])], [97], [98], ?_⟩
  decide

-- a history that meets the hypotheses: a=1, b=2, a=3, rename a to c, remove b
example : Spec.FreshRenames (find []) [.set [97] [49], .set [98] [50], .set [97] [51], .rename [97] [99],
    .remove [98]] := by
  simp [Spec.FreshRenames, Spec.apply, find]
example : [Op.set [97] [49], .set [98] [50], .set [97] [51], .rename [97] [99],
    .remove [98]].foldl Op.apply [] = [([99], [51])] := by decide

end Verif.EntData
