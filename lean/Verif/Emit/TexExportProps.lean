import Verif.Emit.TexinfoProps

/-! **C93.** The texinfos in the file. -/

namespace Verif.Emit

set_option linter.unusedSectionVars false

variable {V F : Type} [DecidableEq V] [DecidableEq F]

namespace Spec

/-- The record has the vectors, the flags and the texture number of the texinfo, the value of the texture and the first
31 characters of its name. -/
def Record (o : XOpts F) (k : TexKey V F) (d : DTex V F) : Prop :=
  d.vecs = k.vecs ∧ d.flags = k.flags ∧ d.miptex = k.miptex ∧
    ∃ name value, o.miptex[k.miptex]? = some (name, value) ∧ d.value = value ∧ d.texture = name.take 31

/-- The number in the file that a reference to texinfo `n` becomes: none if the texinfo is one of those that are not
written. -/
def Ref (o : XOpts F) (infos : List (TexInfo V F)) (n : Nat) (r : Option Nat) : Prop :=
  ∃ t, infos[n]? = some t ∧ t.outputnum = r ∧ (r = none → o.skip t.key.flags = true) ∧
    (r ≠ none → o.skip t.key.flags = false)

/-- The link of a record to the next frame is the one of the texinfo. -/
def Linked (o : XOpts F) (s : XSt V F) (n : Nat) : Prop :=
  ∃ t i d, s.infos[n]? = some t ∧ t.outputnum = some i ∧ s.out[i]? = some d ∧
    match t.key.next with
    | none => d.next = none
    | some nx => Ref o s.infos nx d.next

/-- The numbers in the file: the records are those of different texinfos, none of which is to be left out, and there are
no other records. -/
structure Numbered (o : XOpts F) (s : XSt V F) : Prop where
  record : ∀ (n : Nat) t i, s.infos[n]? = some t → t.outputnum = some i →
    o.skip t.key.flags = false ∧ ∃ d, s.out[i]? = some d ∧ Record o t.key d
  inj : ∀ (n n' : Nat) t t' i, s.infos[n]? = some t → s.infos[n']? = some t' → t.outputnum = some i →
    t'.outputnum = some i → n = n'
  onto : ∀ i < s.out.length, ∃ (n : Nat) (t : TexInfo V F), s.infos[n]? = some t ∧ t.outputnum = some i

end Spec

open Spec

/-- What the export keeps. -/
structure Grows (s s' : XSt V F) : Prop where
  out : s.out <+: s'.out
  keys : s'.infos.map (·.key) = s.infos.map (·.key)
  nums : ∀ (n : Nat) t i, s.infos[n]? = some t → t.outputnum = some i → s'.infos[n]? = some t

theorem Grows.refl (s : XSt V F) : Grows s s := ⟨List.prefix_refl _, rfl, fun _ _ _ h _ => h⟩

theorem Grows.trans {s s1 s2 : XSt V F} (h : Grows s s1) (h' : Grows s1 s2) : Grows s s2 :=
  ⟨h.out.trans h'.out, h'.keys.trans h.keys, fun n t i a b => h'.nums n t i (h.nums n t i a b) b⟩

theorem Grows.get {s s' : XSt V F} (h : Grows s s') {n : Nat} {t : TexInfo V F} (ht : s.infos[n]? = some t) :
    ∃ t', s'.infos[n]? = some t' ∧ t'.key = t.key := by
  have := congrArg (fun l => l[n]?) h.keys
  simp only [List.getElem?_map, ht, Option.map_some] at this
  rcases hs : s'.infos[n]? with _ | t'
  · rw [hs] at this; cases this
  · rw [hs] at this
    exact ⟨t', rfl, by simpa using this⟩

theorem ref_grows {o : XOpts F} {s s' : XSt V F} (h : Grows s s') (hn : Numbered o s') {n : Nat} {r : Option Nat}
    (hr : Ref o s.infos n r) : Ref o s'.infos n r := by
  obtain ⟨t, h1, h2, h3, h4⟩ := hr
  cases r with
  | some i => exact ⟨t, h.nums n t i h1 h2, h2, h3, h4⟩
  | none =>
    obtain ⟨t', a1, a2⟩ := h.get h1
    have hk := h3 rfl
    rw [← a2] at hk
    refine ⟨t', a1, ?_, fun _ => hk, fun hc => absurd rfl hc⟩
    rcases ho : t'.outputnum with _ | i
    · rfl
    · have := (hn.record n t' i a1 ho).1
      rw [hk] at this
      cases this

theorem linked_grows {o : XOpts F} {s s' : XSt V F} (h : Grows s s') (hn : Numbered o s') {n : Nat}
    (hl : Linked o s n) : Linked o s' n := by
  obtain ⟨t, i, d, h1, h2, h3, h4⟩ := hl
  refine ⟨t, i, d, h.nums n t i h1 h2, h2, get_of_prefix h.out h3, ?_⟩
  split
  · rename_i hx
    rw [hx] at h4
    exact h4
  · rename_i nx hx
    rw [hx] at h4
    exact ref_grows h hn h4

theorem record_next {o : XOpts F} {k : TexKey V F} {d : DTex V F} {r : Option Nat} (h : Record o k d) :
    Record o k { d with next := r } := h

theorem set_getElem? {α : Type} {l : List α} {n : Nat} {x y : α} (h : l[n]? = some x) (i : Nat) :
    (l.set n y)[i]? = if i = n then some y else l[i]? := by
  rw [List.getElem?_set]
  by_cases hi : i = n
  · subst hi
    simp [(List.getElem?_eq_some_iff.1 h).1]
  · simp [hi, show ¬ n = i by omega]

/-- The state after a record was added. -/
theorem numbered_add {o : XOpts F} {s : XSt V F} (h : Numbered o s) {n : Nat} {t : TexInfo V F} {m : List Char × Int}
    (ht : s.infos[n]? = some t) (hnone : t.outputnum = none) (hs : o.skip t.key.flags = false)
    (hm : o.miptex[t.key.miptex]? = some m) :
    Numbered o ⟨s.infos.set n { t with outputnum := some s.out.length }, s.out ++ [texRecord t.key m]⟩ ∧
    Grows s ⟨s.infos.set n { t with outputnum := some s.out.length }, s.out ++ [texRecord t.key m]⟩ := by
  have hget := fun i => set_getElem? (y := { t with outputnum := some s.out.length }) ht i
  have hlt : ∀ (n' : Nat) t' i, s.infos[n']? = some t' → t'.outputnum = some i → i < s.out.length := by
    intro n' t' i h1 h2
    obtain ⟨-, d, h3, -⟩ := h.record n' t' i h1 h2
    exact (List.getElem?_eq_some_iff.1 h3).1
  refine ⟨⟨?_, ?_, ?_⟩, ⟨List.prefix_append _ _, ?_, ?_⟩⟩
  · intro n' t' i h1 h2
    simp only [hget] at h1
    split at h1
    · simp only [Option.some.injEq] at h1
      subst h1
      simp only [Option.some.injEq] at h2
      subst h2
      exact ⟨hs, _, by simp; rfl, rfl, rfl, rfl, m.1, m.2, hm, rfl, rfl⟩
    · obtain ⟨a1, d, a2, a3⟩ := h.record n' t' i h1 h2
      exact ⟨a1, d, get_of_prefix (List.prefix_append _ _) a2, a3⟩
  · intro n1 n2 t1 t2 i h1 h2 h3 h4
    simp only [hget] at h1 h2
    split at h1 <;> split at h2
    · omega
    · simp only [Option.some.injEq] at h1
      subst h1
      simp only [Option.some.injEq] at h3
      have := hlt _ _ _ h2 h4
      omega
    · simp only [Option.some.injEq] at h2
      subst h2
      simp only [Option.some.injEq] at h4
      have := hlt _ _ _ h1 h3
      omega
    · exact h.inj n1 n2 t1 t2 i h1 h2 h3 h4
  · intro i hi
    simp only [List.length_append, List.length_cons, List.length_nil] at hi
    by_cases hlast : i = s.out.length
    · refine ⟨n, { t with outputnum := some s.out.length }, ?_, ?_⟩
      · simp only [hget, if_pos]
      · simp [hlast]
    · obtain ⟨n', t', h1, h2⟩ := h.onto i (by omega)
      refine ⟨n', t', ?_, h2⟩
      simp only [hget]
      rw [if_neg]
      · exact h1
      · rintro rfl
        rw [ht] at h1
        simp only [Option.some.injEq] at h1
        subst h1
        rw [hnone] at h2
        cases h2
  · simp only [List.map_set]
    refine List.ext_getElem? fun i => ?_
    rw [set_getElem? (x := t.key) (by simp [ht])]
    split
    · rename_i hi
      subst hi
      simp [ht]
    · rfl
  · intro n' t' i h1 h2
    simp only [hget]
    rw [if_neg]
    · exact h1
    · rintro rfl
      rw [ht] at h1
      simp only [Option.some.injEq] at h1
      subst h1
      rw [hnone] at h2
      cases h2

theorem modify_get {l : List (DTex V F)} {i : Nat} {r : Option Nat} (j : Nat) :
    (l.modify i fun d => { d with next := r })[j]? =
      if i = j then (l[j]?).map (fun d => { d with next := r }) else l[j]? := by
  rw [List.getElem?_modify]
  by_cases h : i = j <;> simp [h]

theorem numbered_modify {o : XOpts F} {s : XSt V F} (h : Numbered o s) (i : Nat) (r : Option Nat) :
    Numbered o { s with out := s.out.modify i fun d => { d with next := r } } := by
  refine ⟨?_, h.inj, ?_⟩
  · intro n t j h1 h2
    obtain ⟨a1, d, a2, a3⟩ := h.record n t j h1 h2
    refine ⟨a1, ?_⟩
    simp only [modify_get]
    split
    · exact ⟨_, by rw [a2]; rfl, record_next a3⟩
    · exact ⟨d, a2, a3⟩
  · intro j hj
    exact h.onto j (by simpa using hj)

theorem exportTexinfo_spec (o : XOpts F) : ∀ (fuel : Nat) {n : Nat} {s s' : XSt V F} {r : Option Nat}, Numbered o s →
    exportTexinfo o fuel n s = some (.ok (r, s')) →
    Numbered o s' ∧ Grows s s' ∧ Ref o s'.infos n r ∧
      ∀ (m : Nat) t i, s'.infos[m]? = some t → t.outputnum = some i → s.out.length ≤ i → Linked o s' m := by
  intro fuel
  induction fuel with
  | zero => intro n s s' r _ h; cases h
  | succ fuel ih =>
    intro n s s' r hn h
    have hold : ∀ (m : Nat) t i, s.infos[m]? = some t → t.outputnum = some i → s.out.length ≤ i → Linked o s m := by
      intro m t i h1 h2 h3
      obtain ⟨-, d, h4, -⟩ := hn.record m t i h1 h2
      have := (List.getElem?_eq_some_iff.1 h4).1
      omega
    unfold exportTexinfo at h
    split at h
    · cases h
    rename_i t ht
    split at h
    · rename_i i hi
      simp only [Option.some.injEq, Outcome.ok.injEq, Prod.mk.injEq] at h
      obtain ⟨rfl, rfl⟩ := h
      exact ⟨hn, Grows.refl _, ⟨t, ht, hi, fun hc => (by cases hc), fun _ => (hn.record n t i ht hi).1⟩, hold⟩
    rename_i hnone
    split at h
    · rename_i hskip
      simp only [Option.some.injEq, Outcome.ok.injEq, Prod.mk.injEq] at h
      obtain ⟨rfl, rfl⟩ := h
      exact ⟨hn, Grows.refl _, ⟨t, ht, hnone, fun _ => hskip, fun hc => absurd rfl hc⟩, hold⟩
    rename_i hskip
    have hskip : o.skip t.key.flags = false := by simpa using hskip
    split at h
    · cases h
    split at h
    · cases h
    rename_i m hm
    obtain ⟨b1, b2⟩ := numbered_add hn ht hnone hskip hm
    have hget := fun i => set_getElem? (y := { t with outputnum := some s.out.length }) ht i
    simp only at h
    split at h
    · rename_i hnext
      simp only [Option.some.injEq, Outcome.ok.injEq, Prod.mk.injEq] at h
      obtain ⟨rfl, rfl⟩ := h
      refine ⟨b1, b2, ⟨{ t with outputnum := some s.out.length }, by simp only [hget, if_pos], rfl, fun hc => (by cases hc),
        fun _ => hskip⟩, ?_⟩
      intro n' t' i h1 h2 h3
      have hin := h1
      simp only [hget] at h1
      split at h1
      · rename_i he
        simp only [Option.some.injEq] at h1
        subst h1
        simp only [Option.some.injEq] at h2
        subst h2
        refine ⟨_, s.out.length, texRecord t.key m, hin, rfl, by simp, ?_⟩
        simp only [hnext]
        rfl
      · obtain ⟨-, d, h4, -⟩ := hn.record n' t' i h1 h2
        have := (List.getElem?_eq_some_iff.1 h4).1
        omega
    · rename_i nx hnext
      split at h
      · cases h
      · rename_i r2 s2 hr
        simp only [Option.some.injEq, Outcome.ok.injEq, Prod.mk.injEq] at h
        obtain ⟨rfl, rfl⟩ := h
        obtain ⟨c1, c2, c3, c4⟩ := ih b1 hr
        have hin : s2.infos[n]? = some { t with outputnum := some s.out.length } :=
          c2.nums n _ s.out.length (by simp only [hget, if_pos]) rfl
        have hd : s2.out[s.out.length]? = some (texRecord t.key m) := get_of_prefix c2.out (by simp)
        refine ⟨numbered_modify c1 _ _, ⟨?_, c2.keys.trans b2.keys, (b2.trans c2).nums⟩, ?_, ?_⟩
        · refine prefix_of_get fun j x hx => ?_
          have hj := (List.getElem?_eq_some_iff.1 hx).1
          simp only [modify_get]
          rw [if_neg (by omega)]
          exact get_of_prefix (b2.out.trans c2.out) hx
        · exact ⟨_, hin, rfl, fun hc => (by cases hc), fun _ => hskip⟩
        · intro n' t' i h1 h2 h3
          simp only at h1
          by_cases hi : i = s.out.length
          · subst hi
            have := c1.inj n' n t' _ _ h1 hin h2 rfl
            subst this
            rw [hin] at h1
            simp only [Option.some.injEq] at h1
            subst h1
            refine ⟨_, s.out.length, _, hin, rfl, by simp only [modify_get, hd]; simp only [if_true, Option.map_some]; rfl, ?_⟩
            simp only [hnext]
            exact c3
          · obtain ⟨t2, i2, d, g1, g2, g3, g4⟩ := c4 n' t' i h1 h2 (by simp; omega)
            rw [h1] at g1
            simp only [Option.some.injEq] at g1
            subst g1
            rw [h2] at g2
            simp only [Option.some.injEq] at g2
            subst g2
            refine ⟨t', i, d, h1, h2, ?_, g4⟩
            simp only [modify_get]
            rw [if_neg (by omega)]
            exact g3
      · cases h
      · cases h

theorem exportTexinfos_spec (o : XOpts F) : ∀ (l : List Nat) {s s' : XSt V F} {rs : List (Option Nat)}, Numbered o s →
    (∀ (m : Nat) t i, s.infos[m]? = some t → t.outputnum = some i → Linked o s m) →
    exportTexinfos o l s = some (.ok (rs, s')) →
    Numbered o s' ∧ Grows s s' ∧ List.Forall₂ (fun r n => Ref o s'.infos n r) rs l ∧
      ∀ (m : Nat) t i, s'.infos[m]? = some t → t.outputnum = some i → Linked o s' m := by
  intro l
  induction l with
  | nil =>
    intro s s' rs hn hl h
    simp only [exportTexinfos, Option.some.injEq, Outcome.ok.injEq, Prod.mk.injEq] at h
    obtain ⟨rfl, rfl⟩ := h
    exact ⟨hn, Grows.refl _, .nil, hl⟩
  | cons n l ih =>
    intro s s' rs hn hl h
    simp only [exportTexinfos] at h
    split at h
    · cases h
    · cases h
    · cases h
    rename_i i s1 h1
    split at h
    · cases h
    · cases h
    · cases h
    rename_i is s2 h2
    simp only [Option.some.injEq, Outcome.ok.injEq, Prod.mk.injEq] at h
    obtain ⟨rfl, rfl⟩ := h
    obtain ⟨a1, a2, a3, a4⟩ := exportTexinfo_spec o _ hn h1
    obtain ⟨b1, b2, b3, b4⟩ := ih a1 (by
      intro m t j g1 g2
      by_cases hj : s.out.length ≤ j
      · exact a4 m t j g1 g2 hj
      · obtain ⟨n', t', e1, e2⟩ := hn.onto j (by omega)
        have := a2.nums n' t' j e1 e2
        have := a1.inj m n' t t' j g1 this g2 e2
        subst this
        exact linked_grows a2 a1 (hl m t' j e1 e2)) h2
    exact ⟨b1, a2.trans b2, .cons (ref_grows b2 b1 a3) b3, b4⟩

/-- **C93.** If no texinfo has a number yet, then after the texinfos of all faces and brush sides were exported: each of
them has become the number of a record with its contents, or -1 if it is one of those that are left out; different
texinfos have different numbers; every record belongs to a texinfo; and every record leads to the record of the next frame
of its texinfo, or to -1 if there is none or it is left out. -/
theorem texinfos_exported {o : XOpts F} {l : List Nat} {s s' : XSt V F} {rs : List (Option Nat)}
    (hfresh : ∀ (n : Nat) t, s.infos[n]? = some t → t.outputnum = none) (hempty : s.out = [])
    (h : exportTexinfos o l s = some (.ok (rs, s'))) :
    Numbered o s' ∧ List.Forall₂ (fun r n => Ref o s'.infos n r) rs l ∧
      (∀ (n : Nat) t i, s'.infos[n]? = some t → t.outputnum = some i → Linked o s' n) ∧
      s'.infos.map (·.key) = s.infos.map (·.key) := by
  have hn : Numbered o s := by
    refine ⟨?_, ?_, ?_⟩
    · intro n t i h1 h2
      rw [hfresh n t h1] at h2
      cases h2
    · intro n n' t t' i h1 _ h2
      rw [hfresh n t h1] at h2
      cases h2
    · intro i hi
      rw [hempty] at hi
      simp at hi
  obtain ⟨a1, a2, a3, a4⟩ := exportTexinfos_spec o l hn (by
    intro m t i h1 h2
    rw [hfresh m t h1] at h2
    cases h2) h
  exact ⟨a1, a3, a4, a2.keys⟩

/-! ## Termination -/

/-- The texinfos without a number. -/
def fresh (infos : List (TexInfo V F)) : Nat := (infos.filter fun t => t.outputnum.isNone).length

theorem fresh_set : ∀ {l : List (TexInfo V F)} {n : Nat} {t : TexInfo V F} {i : Nat}, l[n]? = some t → t.outputnum = none →
    fresh (l.set n { t with outputnum := some i }) < fresh l := by
  intro l
  induction l with
  | nil => intro n t i h; simp at h
  | cons a l ih =>
    intro n t i h hn
    cases n with
    | zero =>
      simp only [List.getElem?_cons_zero, Option.some.injEq] at h
      subst h
      simp [fresh, hn]
    | succ n =>
      simp only [List.getElem?_cons_succ] at h
      have := ih (i := i) h hn
      unfold fresh at this ⊢
      simp only [List.set_cons_succ, List.filter_cons]
      split
      · simpa using this
      · exact this

/-- Every texinfo can be exported. -/
structure CanExport (o : XOpts F) (infos : List (TexInfo V F)) : Prop where
  valid : ∀ t ∈ infos, o.skip t.key.flags = false → o.valid t.key.flags = true
  miptex : ∀ t ∈ infos, t.key.miptex < o.miptex.length
  next : ∀ t ∈ infos, ∀ m, t.key.next = some m → m < infos.length

theorem canExport_keys {o : XOpts F} {a b : List (TexInfo V F)} (h : CanExport o a)
    (hk : b.map (·.key) = a.map (·.key)) : CanExport o b := by
  have hlen : b.length = a.length := by simpa using congrArg List.length hk
  have key : ∀ t ∈ b, ∃ t' ∈ a, t'.key = t.key := by
    intro t ht
    have : t.key ∈ a.map (·.key) := by rw [← hk]; exact List.mem_map.2 ⟨t, ht, rfl⟩
    exact List.mem_map.1 this
  refine ⟨?_, ?_, ?_⟩
  · intro t ht hs
    obtain ⟨t', h1, h2⟩ := key t ht
    rw [← h2] at hs ⊢
    exact h.valid t' h1 hs
  · intro t ht
    obtain ⟨t', h1, h2⟩ := key t ht
    rw [← h2]
    exact h.miptex t' h1
  · intro t ht m hm
    obtain ⟨t', h1, h2⟩ := key t ht
    rw [← h2] at hm
    rw [hlen]
    exact h.next t' h1 m hm

theorem exportTexinfo_ends {o : XOpts F} : ∀ (fuel : Nat) (n : Nat) (s : XSt V F), CanExport o s.infos →
    n < s.infos.length → fresh s.infos < fuel → ∃ r, exportTexinfo o fuel n s = some (.ok r) := by
  intro fuel
  induction fuel with
  | zero => intro n s _ _ h; omega
  | succ fuel ih =>
    intro n s hc hn hf
    unfold exportTexinfo
    have ht : s.infos[n]? = some s.infos[n] := List.getElem?_eq_getElem hn
    have hmem : s.infos[n] ∈ s.infos := List.getElem_mem hn
    generalize s.infos[n] = t at ht hmem
    rw [ht]
    simp only
    rcases ho : t.outputnum with _ | i
    · simp only
      rcases hs : o.skip t.key.flags with _ | _
      · simp only [Bool.false_eq_true, if_false, hc.valid t hmem hs, Bool.not_true]
        rw [List.getElem?_eq_getElem (hc.miptex t hmem)]
        simp only
        rcases hx : t.key.next with _ | nx
        · exact ⟨_, rfl⟩
        · simp only
          have hkeys : (s.infos.set n { t with outputnum := some s.out.length }).map (·.key) = s.infos.map (·.key) := by
            simp only [List.map_set]
            refine List.ext_getElem? fun i => ?_
            rw [set_getElem? (x := t.key) (by simp [ht])]
            split
            · rename_i hi
              subst hi
              simp [ht]
            · rfl
          obtain ⟨⟨r, s2⟩, hr⟩ := ih nx
            ⟨s.infos.set n { t with outputnum := some s.out.length }, s.out ++ [texRecord t.key (o.miptex[t.key.miptex]'(hc.miptex t hmem))]⟩
            (canExport_keys hc hkeys) (by simpa using hc.next t hmem nx hx) (by
              have := fresh_set (i := s.out.length) ht ho
              simp only
              omega)
          rw [hr]
          exact ⟨_, rfl⟩
      · simp only [if_true]
        exact ⟨_, rfl⟩
    · exact ⟨_, rfl⟩

/-- **C93.** The export ends with success even if the animation goes round in a circle. -/
theorem texinfo_export_ends {o : XOpts F} (l : List Nat) {s : XSt V F} (hn : Numbered o s) (hc : CanExport o s.infos)
    (hl : ∀ n ∈ l, n < s.infos.length) : ∃ r, exportTexinfos o l s = some (.ok r) := by
  induction l generalizing s with
  | nil => exact ⟨_, rfl⟩
  | cons n l ih =>
    obtain ⟨⟨i, s1⟩, h1⟩ := exportTexinfo_ends (o := o) (s.infos.length + 1) n s hc (hl n List.mem_cons_self) (by
      have := List.length_filter_le (fun t : TexInfo V F => t.outputnum.isNone) s.infos
      unfold fresh
      omega)
    obtain ⟨a1, a2, -, -⟩ := exportTexinfo_spec o _ hn h1
    have hlen : s1.infos.length = s.infos.length := by simpa using congrArg List.length a2.keys
    obtain ⟨⟨is, s2⟩, h2⟩ := ih a1 (canExport_keys hc a2.keys) (fun m hm => by
      rw [hlen]; exact hl m (List.mem_cons_of_mem _ hm))
    refine ⟨(i :: is, s2), ?_⟩
    simp only [exportTexinfos, h1, h2]

/-- Two texinfos animated in a circle, and one that is left out. -/
def exTexState : XSt Nat Nat :=
  ⟨[⟨⟨7, 0, 5, 0, some 1⟩, none⟩, ⟨⟨7, 1, 5, 0, some 0⟩, none⟩, ⟨⟨8, 0, 99, 0, none⟩, none⟩], []⟩

def exXOpts : XOpts Nat := ⟨fun f => f == 99, fun f => f < 10, [(['a'], 3), (['b'], 4)]⟩

/-- The hypotheses hold, and the records form a circle. -/
example : (∀ (n : Nat) t, exTexState.infos[n]? = some t → t.outputnum = none) ∧ exTexState.out = [] ∧
    CanExport exXOpts exTexState.infos ∧
    (match exportTexinfos exXOpts [1, 2, 0, 1] exTexState with
    | some (.ok (rs, s)) => decide (rs = [some 0, none, some 1, some 0] ∧
      s.out = [⟨7, 5, 1, 4, ['b'], some 1⟩, ⟨7, 5, 0, 3, ['a'], some 0⟩])
    | _ => false) = true := by
  refine ⟨?_, rfl, ⟨?_, ?_, ?_⟩, by decide +kernel⟩
  · intro n t h
    have := List.mem_of_getElem? h
    simp [exTexState] at this
    rcases this with rfl | rfl | rfl <;> rfl
  · intro t ht
    simp [exTexState] at ht
    rcases ht with rfl | rfl | rfl <;> simp [exXOpts]
  · intro t ht
    simp [exTexState] at ht
    rcases ht with rfl | rfl | rfl <;> simp [exXOpts]
  · intro t ht m hm
    simp [exTexState] at ht
    rcases ht with rfl | rfl | rfl <;> simp at hm <;> subst hm <;> simp [exTexState]

end Verif.Emit
