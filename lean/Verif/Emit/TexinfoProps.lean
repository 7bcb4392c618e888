import Verif.Emit.Texinfo
import Mathlib.Data.List.Nodup
import Mathlib.Data.List.Range

/-! **C92.** The list of texinfos. -/

namespace Verif.Emit

set_option linter.unusedSectionVars false

variable {V F : Type} [DecidableEq V] [DecidableEq F]

namespace Spec

/-- The texinfo has the vectors, the texture, the flags and the value that were asked for. -/
def SameTex (t k : TexKey V F) : Prop :=
  t.vecs = k.vecs ∧ t.miptex = k.miptex ∧ t.flags = k.flags ∧ t.value = k.value

/-- The list is in order: the entries of the map are numbered like the texinfos, no key occurs twice, and each texinfo is
what its key says. -/
structure DbOk (db : TexDb V F) : Prop where
  nums : db.lookup.map (·.2) = List.range db.infos.length
  keys : (db.lookup.map (·.1)).Nodup
  same : ∀ k n, (k, n) ∈ db.lookup → ∃ t, db.infos[n]? = some t ∧ SameTex t.key k

/-- Texinfo `n` leads to the texinfo of the next texture of the animation, if its texture is animated. -/
def NextOk (anims : List (Option Nat)) (db : TexDb V F) (k : TexKey V F) (n : Nat) : Prop :=
  ∃ t, db.infos[n]? = some t ∧
    match anims[k.miptex]? with
    | some (some m) => ∃ j, t.key.next = some j ∧ ({ k with miptex := m }, j) ∈ db.lookup
    | _ => t.key.next = k.next

end Spec

open Spec

theorem findKey_some {l : List (TexKey V F × Nat)} {k : TexKey V F} {n : Nat} (h : findKey l k = some n) : (k, n) ∈ l := by
  unfold findKey at h
  rcases hf : l.find? (fun e => decide (e.1 = k)) with _ | ⟨k', n'⟩
  · rw [hf] at h; cases h
  · rw [hf] at h
    simp only [Option.map_some, Option.some.injEq] at h
    have h1 := List.find?_some hf
    simp only [decide_eq_true_eq] at h1
    have h2 := List.mem_of_find?_eq_some hf
    rw [h1, h] at h2
    exact h2

theorem findKey_none {l : List (TexKey V F × Nat)} {k : TexKey V F} (h : findKey l k = none) : k ∉ l.map (·.1) := by
  unfold findKey at h
  simp only [Option.map_eq_none_iff, List.find?_eq_none, decide_eq_true_eq] at h
  intro hm
  obtain ⟨e, he, rfl⟩ := List.mem_map.1 hm
  exact h e he rfl

theorem findKey_mem {l : List (TexKey V F × Nat)} {k : TexKey V F} {n : Nat} (hk : (l.map (·.1)).Nodup) (h : (k, n) ∈ l) :
    findKey l k = some n := by
  rcases hf : findKey l k with _ | m
  · exact absurd (List.mem_map.2 ⟨_, h, rfl⟩) (findKey_none hf)
  · have := findKey_some hf
    have := List.inj_on_of_nodup_map hk this h rfl
    simp only [Prod.mk.injEq, true_and] at this
    rw [this]

theorem Spec.DbOk.num_inj {db : TexDb V F} (h : DbOk db) {k k' : TexKey V F} {n : Nat} (h1 : (k, n) ∈ db.lookup)
    (h2 : (k', n) ∈ db.lookup) : k = k' := by
  have hn : (db.lookup.map (·.2)).Nodup := by rw [h.nums]; exact List.nodup_range
  have := List.inj_on_of_nodup_map hn h1 h2 rfl
  simpa using this

theorem Spec.DbOk.lt {db : TexDb V F} (h : DbOk db) {k : TexKey V F} {n : Nat} (h1 : (k, n) ∈ db.lookup) :
    n < db.infos.length := by
  have : n ∈ db.lookup.map (·.2) := List.mem_map.2 ⟨_, h1, rfl⟩
  rw [h.nums] at this
  simpa using this

theorem add_dbOk {db : TexDb V F} (h : DbOk db) {k : TexKey V F} (hk : findKey db.lookup k = none) :
    DbOk (⟨db.infos ++ [⟨k, none⟩], db.lookup ++ [(k, db.infos.length)]⟩ : TexDb V F) := by
  refine ⟨?_, ?_, ?_⟩
  · simp only [List.map_append, h.nums, List.map_cons, List.map_nil, List.length_append, List.length_cons, List.length_nil,
      Nat.zero_add, List.range_succ]
  · simp only [List.map_append, List.map_cons, List.map_nil]
    refine List.nodup_append.2 ⟨h.keys, by simp, ?_⟩
    intro a ha b hb hab
    simp only [List.mem_singleton] at hb
    subst hb
    subst hab
    exact findKey_none hk ha
  · intro k' n hm
    rcases List.mem_append.1 hm with hm | hm
    · obtain ⟨t, h1, h2⟩ := h.same k' n hm
      refine ⟨t, ?_, h2⟩
      simp only
      rw [List.getElem?_append_left (List.getElem?_eq_some_iff.1 h1).1]
      exact h1
    · simp only [List.mem_singleton, Prod.mk.injEq] at hm
      obtain ⟨rfl, rfl⟩ := hm
      exact ⟨_, by simp; rfl, rfl, rfl, rfl, rfl⟩

theorem setNext_ne {l : List (TexInfo V F)} {n m i : Nat} (h : i ≠ n) : (setNext l n m)[i]? = l[i]? := by
  unfold setNext
  rw [List.getElem?_modify]
  simp [show ¬ n = i by omega]

theorem setNext_eq {l : List (TexInfo V F)} {n m : Nat} {t : TexInfo V F} (h : l[n]? = some t) :
    (setNext l n m)[n]? = some { t with key := { t.key with next := some m } } := by
  unfold setNext
  rw [List.getElem?_modify, h]
  simp

theorem setNext_length (l : List (TexInfo V F)) (n m : Nat) : (setNext l n m).length = l.length := by simp [setNext]

theorem prefix_of_get {α : Type} {a b : List α} (h : ∀ (i : Nat) x, a[i]? = some x → b[i]? = some x) : a <+: b := by
  rw [List.prefix_iff_eq_take]
  refine List.ext_getElem? fun i => ?_
  rw [List.getElem?_take]
  by_cases hi : i < a.length
  · rw [if_pos hi, List.getElem?_eq_getElem hi]
    exact (h i _ (List.getElem?_eq_getElem hi)).symm
  · rw [if_neg hi]
    exact List.getElem?_eq_none (by omega)

theorem get_of_prefix {α : Type} {l l' : List α} (h : l <+: l') {n : Nat} {x : α} (hx : l[n]? = some x) :
    l'[n]? = some x := by
  obtain ⟨r, rfl⟩ := h
  rw [List.getElem?_append_left (List.getElem?_eq_some_iff.1 hx).1]
  exact hx

theorem findTexinfo_spec (anims : List (Option Nat)) : ∀ (fuel : Nat) {k : TexKey V F} {db db' : TexDb V F} {n : Nat},
    DbOk db → findTexinfo anims fuel k db = some (.ok (n, db')) →
    DbOk db' ∧ db.infos <+: db'.infos ∧ db.lookup <+: db'.lookup ∧ (k, n) ∈ db'.lookup ∧
      ∀ k' n', (k', n') ∈ db'.lookup → (k', n') ∈ db.lookup ∨ NextOk anims db' k' n' := by
  intro fuel
  induction fuel with
  | zero => intro k db db' n _ h; cases h
  | succ fuel ih =>
    intro k db db' n hd h
    unfold findTexinfo at h
    split at h
    · rename_i n0 hf
      simp only [Option.some.injEq, Outcome.ok.injEq, Prod.mk.injEq] at h
      obtain ⟨rfl, rfl⟩ := h
      exact ⟨hd, List.prefix_refl _, List.prefix_refl _, findKey_some hf, fun _ _ hm => Or.inl hm⟩
    · rename_i hf
      have hd1 := add_dbOk hd hf
      split at h
      · cases h
      · rename_i ha
        simp only [Option.some.injEq, Outcome.ok.injEq, Prod.mk.injEq] at h
        obtain ⟨rfl, rfl⟩ := h
        refine ⟨hd1, List.prefix_append _ _, List.prefix_append _ _, by simp, ?_⟩
        intro k' n' hm
        rcases List.mem_append.1 hm with hm | hm
        · exact Or.inl hm
        · simp only [List.mem_singleton, Prod.mk.injEq] at hm
          obtain ⟨rfl, rfl⟩ := hm
          refine Or.inr ⟨⟨k', none⟩, by simp, ?_⟩
          rw [ha]
      · rename_i m ha
        simp only at h
        split at h
        · cases h
        · rename_i n' db2 hr
          simp only [Option.some.injEq, Outcome.ok.injEq, Prod.mk.injEq] at h
          obtain ⟨rfl, rfl⟩ := h
          obtain ⟨a1, a2, a3, a4, a5⟩ := ih hd1 hr
          have hn : db2.infos[db.infos.length]? = some ⟨k, none⟩ := get_of_prefix a2 (by simp)
          have hkn : (k, db.infos.length) ∈ db2.lookup := a3.subset (by simp)
          refine ⟨⟨?_, a1.keys, ?_⟩, ?_, (List.prefix_append _ _).trans a3, hkn, ?_⟩
          · simp only [setNext_length]; exact a1.nums
          · intro k' i hm
            obtain ⟨t, h1, h2⟩ := a1.same k' i hm
            by_cases hi : i = db.infos.length
            · subst hi
              refine ⟨_, setNext_eq h1, ?_⟩
              exact h2
            · exact ⟨t, by simp only; rw [setNext_ne hi]; exact h1, h2⟩
          · refine prefix_of_get fun i x hx => ?_
            have hi := (List.getElem?_eq_some_iff.1 hx).1
            simp only
            rw [setNext_ne (by omega)]
            exact get_of_prefix ((List.prefix_append _ _).trans a2) hx
          · intro k' i hm
            by_cases hi : i = db.infos.length
            · subst hi
              have := a1.num_inj hm hkn
              subst this
              refine Or.inr ⟨_, setNext_eq hn, ?_⟩
              rw [ha]
              exact ⟨n', rfl, a4⟩
            · rcases a5 k' i hm with hm' | ⟨t, h1, h2⟩
              · rcases List.mem_append.1 hm' with hm' | hm'
                · exact Or.inl hm'
                · simp only [List.mem_singleton, Prod.mk.injEq] at hm'
                  exact absurd hm'.2 hi
              · exact Or.inr ⟨t, by simp only; rw [setNext_ne hi]; exact h1, h2⟩
        · cases h
        · cases h

/-- **C92.** The number that is returned is that of a texinfo with the vectors, the texture, the flags and the value that
were asked for. The texinfos that were there and their numbers stay. -/
theorem texinfo_found {anims : List (Option Nat)} {fuel : Nat} {k : TexKey V F} {db db' : TexDb V F} {n : Nat} (hd : DbOk db)
    (h : findTexinfo anims fuel k db = some (.ok (n, db'))) :
    (∃ t, db'.infos[n]? = some t ∧ SameTex t.key k) ∧ db.infos <+: db'.infos ∧ DbOk db' := by
  obtain ⟨a1, a2, a3, a4, -⟩ := findTexinfo_spec anims fuel hd h
  exact ⟨a1.same k n a4, a2, a1⟩

/-- **C92.** If the same texinfo is asked for again, whatever was asked for in between, the same number is returned and
nothing is added; if another texinfo was asked for, the number is another one. -/
theorem texinfo_stable {anims anims' : List (Option Nat)} {fuel fuel' : Nat} {k k' : TexKey V F} {db db1 db2 db3 : TexDb V F}
    {n n' : Nat} (hd : DbOk db) (h1 : findTexinfo anims fuel k db = some (.ok (n, db1))) (h2 : DbOk db2)
    (hl : db1.lookup <+: db2.lookup) (h3 : findTexinfo anims' fuel' k' db2 = some (.ok (n', db3))) :
    (n' = n ↔ k' = k) ∧ (k' = k → db3 = db2) := by
  obtain ⟨a1, a2, a3, a4, -⟩ := findTexinfo_spec anims fuel hd h1
  obtain ⟨b1, b2, b3, b4, -⟩ := findTexinfo_spec anims' fuel' h2 h3
  have hkn := b3.subset (hl.subset a4)
  have key : k' = k → n' = n ∧ db3 = db2 := by
    intro hk
    subst hk
    cases fuel' with
    | zero => cases h3
    | succ f =>
      unfold findTexinfo at h3
      rw [findKey_mem h2.keys (hl.subset a4)] at h3
      simp only [Option.some.injEq, Outcome.ok.injEq, Prod.mk.injEq] at h3
      exact ⟨h3.1.symm, h3.2.symm⟩
  refine ⟨⟨?_, fun hk => (key hk).1⟩, fun hk => (key hk).2⟩
  intro hn
  subst hn
  exact b1.num_inj b4 hkn

/-- **C92.** If all texinfos lead to the next texture of their animation, they still do after the call, and so does the one
that is returned. -/
theorem texinfo_animated {anims : List (Option Nat)} {fuel : Nat} {k : TexKey V F} {db db' : TexDb V F} {n : Nat}
    (hd : DbOk db) (h : findTexinfo anims fuel k db = some (.ok (n, db')))
    (hall : ∀ k' n', (k', n') ∈ db.lookup → NextOk anims db k' n') :
    ∀ k' n', (k', n') ∈ db'.lookup → NextOk anims db' k' n' := by
  obtain ⟨a1, a2, a3, a4, a5⟩ := findTexinfo_spec anims fuel hd h
  intro k' n' hm
  rcases a5 k' n' hm with hm | hm
  · obtain ⟨t, h1, h2⟩ := hall k' n' hm
    refine ⟨t, get_of_prefix a2 h1, ?_⟩
    split
    · rename_i m hm'
      rw [hm'] at h2
      obtain ⟨j, h3, h4⟩ := h2
      exact ⟨j, h3, a3.subset h4⟩
    · rename_i hne
      split at h2
      · rename_i m hm'
        exact absurd hm' (hne m)
      · exact h2
  · exact hm

/-! ## Termination -/

/-- The textures for which there is no texinfo yet that is otherwise like the one that is asked for. -/
def unseen (num : Nat) (k : TexKey V F) (db : TexDb V F) : Nat :=
  ((List.range num).filter fun m => decide ({ k with miptex := m } ∉ db.lookup.map (·.1))).length

theorem filter_lt {α : Type} {p q : α → Bool} (hpq : ∀ x, q x = true → p x = true) {x : α} :
    ∀ {l : List α}, x ∈ l → p x = true → q x = false → (l.filter q).length < (l.filter p).length := by
  intro l
  induction l with
  | nil => intro h; cases h
  | cons a l ih =>
    intro hx hp hq
    have hle : (l.filter q).length ≤ (l.filter p).length := (List.monotone_filter_right l hpq).length_le
    rcases List.mem_cons.1 hx with rfl | hx
    · simp only [List.filter_cons, hp, hq, if_true]
      simp
      omega
    · have := ih hx hp hq
      simp only [List.filter_cons]
      by_cases hqa : q a = true
      · simp [hqa, hpq a hqa]; exact this
      · by_cases hpa : p a = true
        · simp [hqa, hpa]; omega
        · simp [hqa, hpa]; exact this

theorem findTexinfo_fuel {anims : List (Option Nat)} (ha : ∀ (n : Nat) m, anims[n]? = some (some m) → m < anims.length) :
    ∀ (fuel : Nat) (k : TexKey V F) (db : TexDb V F), k.miptex < anims.length → unseen anims.length k db < fuel →
      ∃ r, findTexinfo anims fuel k db = some (.ok r) := by
  intro fuel
  induction fuel with
  | zero => intro k db _ h; omega
  | succ fuel ih =>
    intro k db hk h
    unfold findTexinfo
    rcases hf : findKey db.lookup k with _ | n
    · simp only
      rw [List.getElem?_eq_getElem hk]
      rcases hm : anims[k.miptex] with _ | m
      · exact ⟨_, rfl⟩
      · simp only
        have hm' : anims[k.miptex]? = some (some m) := by rw [List.getElem?_eq_getElem hk, hm]
        have hlt : unseen anims.length { k with miptex := m }
            (⟨db.infos ++ [⟨k, none⟩], db.lookup ++ [(k, db.infos.length)]⟩ : TexDb V F) < unseen anims.length k db := by
          refine filter_lt (x := k.miptex) ?_ (List.mem_range.2 hk) ?_ ?_
          · intro x hx
            simp only [decide_eq_true_eq, List.map_append, List.mem_append, not_or] at hx ⊢
            exact hx.1
          · simp only [decide_eq_true_eq]
            exact findKey_none hf
          · simp
        obtain ⟨⟨n', db2⟩, hr⟩ := ih { k with miptex := m }
          (⟨db.infos ++ [⟨k, none⟩], db.lookup ++ [(k, db.infos.length)]⟩ : TexDb V F) (ha _ _ hm') (by omega)
        rw [hr]
        exact ⟨_, rfl⟩
    · exact ⟨_, rfl⟩

/-- **C92.** Finding a texinfo ends with success, however the textures are animated: the recursion is never deeper than
the number of textures plus one. -/
theorem texinfo_ends {anims : List (Option Nat)} (ha : ∀ (n : Nat) m, anims[n]? = some (some m) → m < anims.length)
    {k : TexKey V F} (hk : k.miptex < anims.length) (db : TexDb V F) :
    ∃ r, findTexinfo anims (anims.length + 1) k db = some (.ok r) := by
  refine findTexinfo_fuel ha _ k db hk ?_
  unfold unseen
  have := List.length_filter_le (fun m => decide ({ k with miptex := m } ∉ db.lookup.map (·.1))) (List.range anims.length)
  rw [List.length_range] at this
  omega

/-- The hypotheses hold: three textures, the first two of which are animated in a circle. The second call returns the
texinfo that was made for the animation. -/
example : DbOk (⟨[], []⟩ : TexDb Nat Nat) ∧
    (∀ (n : Nat) m, ([some 1, some 0, none] : List (Option Nat))[n]? = some (some m) → m < 3) ∧
    (match findTexinfo [some 1, some 0, none] 4 (⟨7, 0, 5, 0, none⟩ : TexKey Nat Nat) ⟨[], []⟩ with
    | some (.ok (n, db)) => decide (n = 0 ∧ db.infos = [⟨⟨7, 0, 5, 0, some 1⟩, none⟩, ⟨⟨7, 1, 5, 0, some 0⟩, none⟩] ∧
      findKey db.lookup ⟨7, 1, 5, 0, none⟩ = some 1)
    | _ => false) = true := by
  refine ⟨⟨rfl, by simp, by simp⟩, ?_, by decide +kernel⟩
  intro n m h
  rcases n with _ | _ | _ | n <;> simp at h <;> omega

end Verif.Emit
