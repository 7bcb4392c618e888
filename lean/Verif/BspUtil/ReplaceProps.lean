import Verif.BspUtil.Replace
import Verif.EntData.DictProps
import Mathlib.Data.List.Nodup
import Mathlib.Tactic.Push

/-! C206: `bsputil --replace-entities` on maps. -/

namespace Verif.BspUtil.Replace

open Parser (State parseToken ofFile)
open EntData (Str Dict)

namespace Spec

/-- An entity names a model, or is an area portal. -/
def Brushy (e : MEnt) : Prop := (∃ v, EntData.find e.keys kModel = some v ∧ v ≠ []) ∨ EntData.find e.keys kClassname = some vAreaportal

end Spec

open Spec

theorem isTarget_iff (e : MEnt) : isTarget e = true ↔ Brushy e := by
  unfold isTarget Brushy EntData.get
  simp only [decide_eq_true_eq]
  have h1 : vAreaportal ≠ [] := by decide
  cases EntData.find e.keys kModel <;> cases EntData.find e.keys kClassname <;> simp [h1.symm]

instance (e : MEnt) : Decidable (Brushy e) := decidable_of_iff _ (isTarget_iff e)

namespace Spec

/-- The places of these entities, in order. -/
def places (es : List MEnt) : List Nat :=
  (List.range es.length).filter fun i => match es[i]? with
    | some e => decide (Brushy e)
    | none => false

/-- The brushes of the entities of a map that have any, in order. -/
def brushesOf (ms : List MEnt) : List Str := (ms.map MEnt.brushes).filter fun b => b ≠ []

/-- A light with a name, or an area portal. -/
def Styled (d : Dict) : Prop :=
  (EntData.find d kClassname = some vLight ∧ ∃ v, EntData.find d kTargetname = some v) ∨ EntData.find d kClassname = some vAreaportal

end Spec

/-- The places from a number on (lemma). -/
def targets : List MEnt → Nat → List Nat
  | [], _ => []
  | e :: es, i => if isTarget e then i :: targets es (i + 1) else targets es (i + 1)

theorem nthTarget_eq (b : Nat) : ∀ (es : List MEnt) (b2 i : Nat), b2 ≤ b → nthTarget b es b2 i = (targets es i)[b - b2]?
  | [], _, _, _ => rfl
  | e :: es, b2, i, h => by
    unfold nthTarget targets
    by_cases ht : isTarget e = true
    · rw [if_neg (by simp [ht]), if_pos ht]
      by_cases hb : b2 = b
      · rw [if_pos hb, hb, Nat.sub_self]; rfl
      · rw [if_neg hb, nthTarget_eq b es (b2 + 1) (i + 1) (by omega), show b - b2 = (b - (b2 + 1)) + 1 by omega]; rfl
    · rw [if_pos (by simp [ht]), if_neg ht]
      exact nthTarget_eq b es b2 (i + 1) h

theorem targets_ge : ∀ (es : List MEnt) (i : Nat), ∀ j ∈ targets es i, i ≤ j ∧ j < i + es.length
  | [], _, j, h => by simp [targets] at h
  | e :: es, i, j, h => by
    unfold targets at h
    split at h
    · rcases List.mem_cons.1 h with rfl | h
      · simp
      · have := targets_ge es (i + 1) j h
        simp only [List.length_cons]; omega
    · have := targets_ge es (i + 1) j h
      simp only [List.length_cons]; omega

theorem targets_nodup : ∀ (es : List MEnt) (i : Nat), (targets es i).Nodup
  | [], _ => by simp [targets]
  | e :: es, i => by
    unfold targets
    split
    · refine List.nodup_cons.2 ⟨fun h => ?_, targets_nodup es (i + 1)⟩
      have := (targets_ge es (i + 1) i h).1
      omega
    · exact targets_nodup es (i + 1)

theorem targets_keys : ∀ (es fs : List MEnt) (i : Nat), es.map MEnt.keys = fs.map MEnt.keys → targets es i = targets fs i
  | [], [], _, _ => rfl
  | [], _ :: _, _, h => by simp at h
  | _ :: _, [], _, h => by simp at h
  | e :: es, f :: fs, i, h => by
    simp only [List.map_cons, List.cons.injEq] at h
    have : isTarget e = isTarget f := by simp only [isTarget, h.1]
    unfold targets
    rw [this, targets_keys es fs (i + 1) h.2]

theorem targets_places (es : List MEnt) : targets es 0 = places es := by
  have key : ∀ (es : List MEnt) (i : Nat), targets es i = (List.range' i es.length).filter fun j => match es[j - i]? with
      | some e => decide (Brushy e)
      | none => false := by
    intro es
    induction es with
    | nil => intro i; simp [targets]
    | cons e es ih =>
      intro i
      unfold targets
      rw [List.length_cons, List.range'_succ, List.filter_cons, ih (i + 1)]
      have hrest : ((List.range' (i + 1) es.length).filter fun j => match (e :: es)[j - i]? with
          | some e => decide (Brushy e)
          | none => false) = (List.range' (i + 1) es.length).filter fun j => match es[j - (i + 1)]? with
          | some e => decide (Brushy e)
          | none => false := by
        apply List.filter_congr
        intro j hj
        have := List.mem_range'_1.1 hj
        rw [show j - i = (j - (i + 1)) + 1 by omega, List.getElem?_cons_succ]
      rw [hrest]
      simp only [Nat.sub_self, List.getElem?_cons_zero]
      by_cases h : isTarget e = true
      · rw [if_pos h, if_pos (by simpa using (isTarget_iff e).1 h)]
      · rw [if_neg h, if_neg (by simpa using fun h' => h ((isTarget_iff e).2 h'))]
  rw [key es 0, places, ← List.range_eq_range']
  simp only [Nat.sub_zero]

theorem modify_keys (es : List MEnt) (i : Nat) (b : Str) : (es.modify i fun e => { e with brushes := b }).map MEnt.keys = es.map MEnt.keys := by
  apply List.ext_getElem?
  intro j
  rw [List.getElem?_map, List.getElem?_map, List.getElem?_modify]
  cases es[j]? with
  | none => rfl
  | some e => simp only [Option.map_some]; split <;> rfl

theorem assign_spec : ∀ (ms : List MEnt) (b : Nat) (es : List MEnt), 1 ≤ b →
    (assign ms b es ≠ .ub) ∧
    (assign ms b es = .error ↔ brushesOf ms ≠ [] ∧ (targets es 0).length < b - 1 + (brushesOf ms).length) ∧
    ∀ r, assign ms b es = .ok r → r.map MEnt.keys = es.map MEnt.keys ∧
      (∀ (k : Nat) (x : Str), (brushesOf ms)[k]? = some x → ∃ (i : Nat) (c : MEnt), (targets es 0)[b - 1 + k]? = some i ∧ r[i]? = some c ∧ c.brushes = x) ∧
      (∀ i, (∀ k, k < (brushesOf ms).length → (targets es 0)[b - 1 + k]? ≠ some i) → r[i]? = es[i]?)
  | [], b, es, _ => by
    refine ⟨by simp [assign], by simp [assign, brushesOf], ?_⟩
    intro r h
    simp only [assign, Outcome.ok.injEq] at h
    subst h
    exact ⟨rfl, by simp [brushesOf], fun i _ => rfl⟩
  | m :: ms, b, es, hb => by
    unfold assign
    by_cases hm : m.brushes = []
    · rw [if_pos hm]
      have : brushesOf (m :: ms) = brushesOf ms := by simp [brushesOf, hm]
      rw [this]
      exact assign_spec ms b es hb
    · have hbr : brushesOf (m :: ms) = m.brushes :: brushesOf ms := by simp [brushesOf, hm]
      rw [if_neg hm, hbr, nthTarget_eq b es 1 0 hb]
      cases ht : (targets es 0)[b - 1]? with
      | none =>
        have := List.getElem?_eq_none_iff.1 ht
        refine ⟨by simp, by simp; omega, by simp⟩
      | some i =>
        have hlt := (List.getElem?_eq_some_iff.1 ht).1
        simp only
        set es' := es.modify i fun e => { e with brushes := m.brushes } with hes'
        have hk : es'.map MEnt.keys = es.map MEnt.keys := modify_keys es i m.brushes
        have hT := targets_keys es' es 0 hk
        obtain ⟨h1, h2, h3⟩ := assign_spec ms (b + 1) es' (by omega)
        rw [hT] at h2 h3
        refine ⟨h1, ?_, ?_⟩
        · rw [h2]
          simp only [List.length_cons, ne_eq, reduceCtorEq, not_false_eq_true, true_and]
          constructor
          · rintro ⟨_, h⟩; omega
          · intro h
            refine ⟨fun h0 => ?_, by omega⟩
            rw [h0] at h
            simp only [List.length_nil] at h
            omega
        · intro r hr
          obtain ⟨a1, a2, a3⟩ := h3 r hr
          refine ⟨a1.trans hk, ?_, ?_⟩
          · intro k x hx
            cases k with
            | zero =>
              simp only [List.getElem?_cons_zero, Option.some.injEq] at hx
              have hil := (targets_ge es 0 i (List.mem_of_getElem? ht)).2
              have hfree := a3 i (by
                intro k hk' hki
                have := (List.getElem?_inj hlt (targets_nodup es 0)).1 (ht.trans hki.symm)
                omega)
              have hget : es[i]? = some es[i] := List.getElem?_eq_getElem (by omega)
              refine ⟨i, { es[i] with brushes := m.brushes }, ht, ?_, hx⟩
              rw [hfree, hes', List.getElem?_modify, hget]
              simp
            | succ k =>
              simp only [List.getElem?_cons_succ] at hx
              obtain ⟨j, c, hj, hc, e⟩ := a2 k x hx
              exact ⟨j, c, by rw [← hj]; congr 1; omega, hc, e⟩
          · intro j hj
            have hij : i ≠ j := by
              intro e
              exact hj 0 (by simp) (by rw [Nat.add_zero, ht, e])
            rw [a3 j (by
              intro k hk' hkj
              exact hj (k + 1) (by simp only [List.length_cons]; omega) (by rw [← hkj]; congr 1; omega)), hes', List.getElem?_modify]
            simp [hij]

theorem clean_brushes (e : MEnt) : (clean e).brushes = e.brushes := rfl

/-- **C206 (brushes).** When `--replace-entities` succeeds, the new map has the entities of the file in their order. The world gets the brushes of the
world. Of the other entities, those that name a model or are area portals get the brushes of the map's other entities with brushes, the first
the first, the second the second and so on; the rest keep the brushes that the file gave them. -/
theorem replace_brushes {w e : MEnt} {ms es r : List MEnt} (h : replace (w :: ms) (e :: es) = .ok r) :
    r.length = (e :: es).length ∧
    (∀ (k : Nat) (x : Str), (brushesOf ms)[k]? = some x →
      ∃ (i : Nat) (c : MEnt), (places (e :: es))[k]? = some i ∧ r[i]? = some c ∧ c.brushes = x) ∧
    (∀ (i : Nat) (f : MEnt), (e :: es)[i]? = some f → (∀ k, k < (brushesOf ms).length → (places (e :: es))[k]? ≠ some i) →
      ∃ c, r[i]? = some c ∧ c.brushes = if i = 0 then w.brushes else f.brushes) := by
  simp only [replace, Outcome.bind_eq_ok] at h
  obtain ⟨r', h, hr⟩ := h
  simp only [Outcome.ok.injEq] at hr
  subst hr
  obtain ⟨a1, a2, a3⟩ := (assign_spec ms 1 _ (Nat.le_refl 1)).2.2 r' h
  have hT : targets ({ e with brushes := w.brushes } :: es) 0 = places (e :: es) := by
    rw [← targets_places]
    exact targets_keys _ _ 0 rfl
  rw [hT] at a2 a3
  have hlen : r'.length = (e :: es).length := by
    have := congrArg List.length a1
    simpa using this
  refine ⟨by simpa using hlen, ?_, ?_⟩
  · intro k x hx
    obtain ⟨i, c, hi, hc, e⟩ := a2 k x hx
    exact ⟨i, clean c, by simpa using hi, by simp [hc], e⟩
  · intro i f hf hi
    have hfree := a3 i (fun k hk => by simpa using hi k hk)
    cases i with
    | zero => exact ⟨clean { e with brushes := w.brushes }, by rw [List.getElem?_map, hfree]; rfl, rfl⟩
    | succ i =>
      rw [List.getElem?_cons_succ] at hfree hf
      exact ⟨clean f, by rw [List.getElem?_map, hfree, hf]; rfl, by simp [clean_brushes]⟩

/-- **C206 (errors).** The command fails just if the map has more entities with brushes than the file has places for. -/
theorem replace_error (w e : MEnt) (ms es : List MEnt) :
    replace (w :: ms) (e :: es) = .error ↔ (places (e :: es)).length < (brushesOf ms).length := by
  obtain ⟨h1, h2, -⟩ := assign_spec ms 1 ({ e with brushes := w.brushes } :: es) (Nat.le_refl 1)
  have hT : targets ({ e with brushes := w.brushes } :: es) 0 = places (e :: es) := by
    rw [← targets_places]
    exact targets_keys _ _ 0 rfl
  rw [hT] at h2
  simp only [replace]
  rw [Outcome.bind_eq_error]
  simp only [reduceCtorEq, and_false, exists_false, or_false, h2]
  constructor
  · rintro ⟨_, h⟩; omega
  · intro h
    refine ⟨fun h0 => ?_, by omega⟩
    rw [h0] at h
    simp at h

theorem keys_remove_nodup {d : Dict} (hd : (EntData.keys d).Nodup) (k : Str) : (EntData.keys (EntData.remove d k)).Nodup := by
  have : (EntData.remove d k).Sublist d := by
    induction d with
    | nil => exact List.Sublist.refl _
    | cons y d ih =>
      simp only [EntData.remove]
      split
      · exact List.sublist_cons_self _ _
      · refine List.Sublist.cons_cons _ (ih ?_)
        simp only [EntData.keys, List.map_cons, List.nodup_cons] at hd
        exact hd.2
  exact hd.sublist (this.map _)

theorem styled_iff (d : Dict) : Styled d ↔
    (EntData.get d kClassname = vLight ∧ EntData.has d kTargetname = true) ∨ EntData.get d kClassname = vAreaportal := by
  have h1 : vAreaportal ≠ [] := by decide
  have h2 : vLight ≠ [] := by decide
  unfold Styled EntData.get EntData.has
  cases EntData.find d kClassname <;> cases EntData.find d kTargetname <;> simp [h1.symm, h2.symm]

instance (d : Dict) : Decidable (Styled d) := decidable_of_iff _ (styled_iff d).symm

/-- **C206 (keys).** An entity of the new map has the keys and values of the file, except that `origin` is removed from one that gets brushes, and
`style` from lights with names and from area portals. -/
theorem replace_keys {w e : MEnt} {ms es r : List MEnt} (h : replace (w :: ms) (e :: es) = .ok r) {i : Nat} {f : MEnt} (hf : (e :: es)[i]? = some f)
    (hd : (f.keys.map Prod.fst).Nodup) :
    ∃ c, r[i]? = some c ∧ ∀ k,
      ((k = kOrigin ∧ c.brushes ≠ []) ∨ (k = kStyle ∧ Styled f.keys) → EntData.find c.keys k = none) ∧
      (¬ ((k = kOrigin ∧ c.brushes ≠ []) ∨ (k = kStyle ∧ Styled f.keys)) → EntData.find c.keys k = EntData.find f.keys k) := by
  simp only [replace, Outcome.bind_eq_ok] at h
  obtain ⟨r', h, hr⟩ := h
  simp only [Outcome.ok.injEq] at hr
  subst hr
  obtain ⟨a1, -, -⟩ := (assign_spec ms 1 _ (Nat.le_refl 1)).2.2 r' h
  have hk : (r'.map MEnt.keys)[i]? = some f.keys := by
    rw [a1]
    cases i with
    | zero => simp only [List.getElem?_cons_zero, Option.some.injEq] at hf; subst hf; rfl
    | succ i => simp only [List.getElem?_cons_succ] at hf; simp [hf]
  rw [List.getElem?_map] at hk
  cases hc : r'[i]? with
  | none => rw [hc] at hk; cases hk
  | some c =>
    rw [hc] at hk
    simp only [Option.map_some, Option.some.injEq] at hk
    refine ⟨clean c, by rw [List.getElem?_map, hc]; rfl, ?_⟩
    rw [clean_brushes]
    rw [← hk] at hd ⊢
    -- after the origin
    set d := (if c.brushes ≠ [] ∧ EntData.has c.keys kOrigin then EntData.remove c.keys kOrigin else c.keys) with hdd
    have hdn : (EntData.keys d).Nodup := by
      rw [hdd]; split
      · exact keys_remove_nodup hd _
      · exact hd
    have hfd : ∀ k, EntData.find d k = if k = kOrigin ∧ c.brushes ≠ [] then none else EntData.find c.keys k := by
      intro k
      rw [hdd]
      by_cases hb : c.brushes = []
      · simp [hb]
      · by_cases hh : EntData.has c.keys kOrigin = true
        · rw [if_pos ⟨hb, hh⟩, EntData.find_remove _ hd]
          simp [hb]
        · rw [if_neg (by simp [hh])]
          split_ifs with hk
          · rw [hk.1]
            unfold EntData.has at hh
            simpa using hh
          · rfl
    have hst : Styled d ↔ Styled c.keys := by
      unfold Styled
      rw [hfd, hfd, if_neg (by intro h; exact absurd h.1 (by decide)), if_neg (by intro h; exact absurd h.1 (by decide))]
    have hfc : ∀ k, EntData.find (clean c).keys k = if k = kStyle ∧ Styled c.keys then none else EntData.find d k := by
      intro k
      simp only [← hst, styled_iff]
      have hnone : EntData.has d kStyle = false → k = kStyle → EntData.find d k = none := by
        rintro h0 rfl
        simpa [EntData.has] using h0
      have hcl : (clean c).keys = (if EntData.has d kStyle then
          (if EntData.get d kClassname = vLight then
            (if EntData.has d kTargetname then EntData.remove d kStyle else d)
          else if EntData.get d kClassname = vAreaportal then EntData.remove d kStyle
          else d)
        else d) := rfl
      rw [hcl]
      have hne : vLight ≠ vAreaportal := by decide
      by_cases h1 : EntData.has d kStyle = true
      · rw [if_pos h1]
        by_cases h2 : EntData.get d kClassname = vLight
        · rw [if_pos h2]
          by_cases h3 : EntData.has d kTargetname = true
          · rw [if_pos h3, EntData.find_remove d hdn]
            simp [h2, h3]
          · rw [if_neg h3, if_neg]
            rintro ⟨-, ⟨-, h⟩ | h⟩
            · exact h3 h
            · exact hne (h2.symm.trans h)
        · rw [if_neg h2]
          by_cases h3 : EntData.get d kClassname = vAreaportal
          · rw [if_pos h3, EntData.find_remove d hdn]
            simp [h3]
          · rw [if_neg h3, if_neg]
            rintro ⟨-, ⟨h, -⟩ | h⟩
            · exact h2 h
            · exact h3 h
      · rw [if_neg h1]
        split_ifs with hk
        · exact hnone (by simpa using h1) hk.1
        · rfl
    intro k
    rw [hfc, hfd]
    constructor
    · rintro (h | h)
      · rw [if_pos h]; simp
      · rw [if_pos h]
    · intro h
      rw [not_or] at h
      rw [if_neg h.2, if_neg h.1]

/-! ### Reading -/

theorem took_suffix {tail : Nat} {fl : Parser.Flags} {p q : State} {f : Bool} (h : parseToken tail fl false p = .ok (f, q)) : q.rest <:+ p.rest := by
  simp only [parseToken, Bool.false_eq_true, if_false] at h
  cases f with
  | true =>
    obtain ⟨j, -, -, ⟨-, -, e, -⟩ | ⟨-, -, e, -⟩ | ⟨-, -, e, -⟩⟩ := Parser.scan_spec h
    · exact ⟨_, e.symm⟩
    · exact ⟨j ++ 34 :: q.token ++ [34], by rw [e]; simp⟩
    · exact ⟨_, e.symm⟩
  | false =>
    obtain ⟨-, -, j, c, -, -, e, -⟩ := Parser.scan_spec h
    exact ⟨_, e.symm⟩

/-- The text of brushes: pieces of a text, each followed by a newline. -/
def Spec.Verbatim (text b : Str) : Prop := ∃ pieces : List Str, b = (pieces.map (· ++ [10])).flatten ∧ ∀ x ∈ pieces, x <:+: text

theorem verbatim_mono {t u b : Str} (h : Verbatim t b) (hs : t <:+ u) : Verbatim u b := by
  obtain ⟨ps, e, h⟩ := h
  exact ⟨ps, e, fun x hx => (h x hx).trans hs.isInfix⟩

theorem body_verbatim {tail : Nat} {p s : State} {e r : MEnt} (h : parseBody tail p e = .ok (r, s)) :
    ∀ text, p.rest <:+ text → Verbatim text e.brushes → Verbatim text r.brushes ∧ s.rest <:+ text := by
  have hskip : ∀ {p q : State}, skipBrush tail p = .ok q → q.rest <:+ p.rest := by
    intro p q h
    fun_induction skipBrush tail p
    all_goals first
      | (simp at h; done)
      | skip
    · rename_i hk _
      simp only [Outcome.ok.injEq] at h
      rw [← h]
      exact took_suffix hk
    · rename_i hk _ ih
      exact (ih h).trans (took_suffix hk)
  have hpair : ∀ {k v : State} {d d' : Dict}, parseEpair tail k d = .ok (d', v) → v.rest <:+ k.rest := by
    intro k v d d' h
    simp only [parseEpair, Outcome.bind_eq_ok] at h
    obtain ⟨_, _, _, _, ⟨f, s⟩, hs, h⟩ := h
    simp only [Outcome.ok.injEq, Prod.mk.injEq] at h
    obtain ⟨-, rfl⟩ := h
    exact took_suffix hs
  fun_induction parseBody tail p e
  all_goals first
    | (simp at h; done)
    | skip
  · rename_i hk _
    simp only [Outcome.ok.injEq, Prod.mk.injEq] at h
    obtain ⟨rfl, rfl⟩ := h
    intro text ht hv
    exact ⟨hv, (took_suffix hk).trans ht⟩
  · rename_i p e k hk _ _ q hq ih
    intro text ht hv
    refine ih h text (((hskip hq).trans (took_suffix hk)).trans ht) ?_
    obtain ⟨ps, he, hps⟩ := hv
    refine ⟨ps ++ [rawText p k q], by simp [he], ?_⟩
    intro x hx
    rcases List.mem_append.1 hx with hx | hx
    · exact hps x hx
    · rw [List.mem_singleton.1 hx]
      unfold rawText
      exact ((List.take_prefix _ _).isInfix.trans (List.drop_suffix _ _).isInfix).trans ht.isInfix
  · rename_i p e k hk _ _ d v hq ih
    intro text ht hv
    exact ih h text (((hpair hq).trans (took_suffix hk)).trans ht) hv

/-- **C206 (reading).** The brushes of an entity that has been read are pieces of the file, byte for byte, each followed by a newline. -/
theorem load_verbatim {text : Str} {es : List MEnt} (h : load text = .ok es) : ∀ e ∈ es, Verbatim text e.brushes := by
  have key : ∀ (tail : Nat) (p : State) (es : List MEnt), loadFrom tail p = .ok es → ∀ text, p.rest <:+ text → ∀ e ∈ es, Verbatim text e.brushes := by
    intro tail p es h
    fun_induction loadFrom tail p generalizing es
    all_goals first
      | (simp at h; done)
      | skip
    · simp only [Outcome.ok.injEq] at h
      subst h
      intro text _ e he
      simp at he
    · rename_i hk _ _ _ hb _ hl ih
      simp only [Outcome.ok.injEq] at h
      subst h
      intro text ht e he
      obtain ⟨h1, h2⟩ := body_verbatim hb text ((took_suffix hk).trans ht) ⟨[], rfl, by simp⟩
      rcases List.mem_cons.1 he with rfl | he
      · exact h1
      · exact ih _ hl text h2 e he
  exact key 0 (ofFile text) es h text (List.suffix_refl _)

/-! ### Cases -/

/-- `*1` and `*2`. -/
def star (n : UInt8) : Dict := [(kModel, [42, n])]

/-- A case: a map with brushes "a" for the world and "b", "c" for two entities, and a file with a light in between. -/
def exMap : List MEnt := [⟨[], [97]⟩, ⟨[], [98]⟩, ⟨[], []⟩, ⟨[], [99]⟩]
def exEnts : List MEnt := [⟨[], []⟩, ⟨star 49, []⟩, ⟨[(kClassname, vLight), (kStyle, [51, 50]), (kTargetname, [116])], []⟩, ⟨star 50 ++ [(kOrigin, [48])], []⟩]

example : replace exMap exEnts = .ok [⟨[], [97]⟩, ⟨star 49, [98]⟩, ⟨[(kClassname, vLight), (kTargetname, [116])], []⟩, ⟨star 50, [99]⟩] := by
  decide +kernel

example : places exEnts = [1, 3] ∧ brushesOf exMap.tail = [[98], [99]] := by decide +kernel

example : ∀ e ∈ exEnts, (e.keys.map Prod.fst).Nodup := by decide +kernel

example : replace exMap [⟨[], []⟩, ⟨star 49, []⟩] = .error := by decide +kernel

/-- **C206, a defect.** The brushes go by the order of the entities, not by the numbers of the models that they name: with the entities of `*2` and `*1` in this
order, `*2` gets the brushes of the first model. -/
theorem replace_order_wrong : replace [⟨[], [97]⟩, ⟨[], [98]⟩, ⟨[], [99]⟩] [⟨[], []⟩, ⟨star 50, []⟩, ⟨star 49, []⟩] =
    .ok [⟨[], [97]⟩, ⟨star 50, [98]⟩, ⟨star 49, [99]⟩] := by decide +kernel

/-- **C206, a defect.** An entity of the file for which the map has no brushes is written without any, and nothing is said. -/
theorem replace_left_empty : replace [⟨[], [97]⟩] [⟨[], []⟩, ⟨star 49, []⟩] = .ok [⟨[], [97]⟩, ⟨star 49, []⟩] := by decide +kernel

/-- **C206, a defect.** An empty file or map makes the command undefined. -/
theorem replace_empty_ub (map : List MEnt) : replace map [] = .ub ∧ replace [] map = .ub := by
  constructor
  · cases map <;> rfl
  · rfl

/-- `{⏎{⏎( )⏎}⏎}⏎` and `{⏎{⏎brushDef⏎{⏎( )⏎}⏎}⏎}⏎`. -/
def plainText : Str := [123, 10, 123, 10, 40, 32, 41, 10, 125, 10, 125, 10]
def primText : Str := [123, 10, 123, 10, 98, 114, 117, 115, 104, 68, 101, 102, 10, 123, 10, 40, 32, 41, 10, 125, 10, 125, 10, 125, 10]

example : load plainText = .ok [⟨[], [123, 10, 40, 32, 41, 10, 125, 10]⟩] := by decide +kernel

/-- **C206, a defect.** A brush ends at the first `}`: a map with brush primitives (or patches) is refused. -/
theorem primitives_refused : load primText = .error := by decide +kernel

end Verif.BspUtil.Replace
