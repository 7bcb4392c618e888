import Verif.Alias.Spec
import Verif.TexRemap.Lemmas
import Verif.EntData.DictProps

/-! Lemmas about files with aliases. -/

namespace Verif.Alias

open Verif.Parser (State parseToken ofFile atEnd scan)
open Verif.EntData (Str Dict parsePairs writePair writeEntity KeyOk ValOk scan_newline scan_brace scan_space scan_quoted quoted_key quoted_value
  trimKey_ok set_append)
open Spec

theorem scan_gap {g : Str} (h : Gap g) (x : Str) : ∀ l, ∃ n, scan 0 {} (g ++ x) l = scan 0 {} x n := by
  induction h with
  | nil => exact fun l => ⟨l, rfl⟩
  | @blank b g hb h0 _ ih =>
    intro l
    by_cases h10 : b = 10
    · subst h10
      obtain ⟨n, hn⟩ := ih (l + 1)
      exact ⟨n, by rw [List.cons_append, scan_newline (by simp), hn]⟩
    · obtain ⟨n, hn⟩ := ih l
      refine ⟨n, ?_⟩
      rw [List.cons_append, ← hn]
      apply EntData.scan_congr
      rw [Parser.skipSpace]
      simp [Parser.atEnd, SurfLights.blank_iff.mpr hb, h0, h10, Parser.NL]
  | @comment c g hc h10 h0 _ ih =>
    intro l
    obtain ⟨n, hn⟩ := TexRemap.skipEmpty (line := c) (.comment (s := []) (by simp [SurfLights.Spec.Space]) hc h10 h0) (g ++ x) l
    obtain ⟨n', hn'⟩ := ih n
    exact ⟨n', by rw [List.append_assoc, List.cons_append, hn, hn']⟩

theorem scan_of_word {t w rest : Str} (h : Word t w rest) (l : Nat) : ∃ q, scan 0 {} t l = .ok (true, ⟨rest, l, w, q⟩) := by
  cases h with
  | plain hw hr =>
    obtain ⟨b, r, rfl, hb⟩ := hr
    exact ⟨false, TexRemap.scan_word rfl w hw b (SurfLights.blank_iff.mpr hb) r l⟩
  | quoted hw => exact ⟨true, scan_quoted (by simp) (quoted_key hw rest)⟩

theorem gap_word {g t w rest : Str} (hg : Gap g) (h : Word t w rest) (l : Nat) :
    ∃ n q, scan 0 {} (g ++ t) l = .ok (true, ⟨rest, n, w, q⟩) := by
  obtain ⟨n, hn⟩ := scan_gap hg t l
  obtain ⟨q, hq⟩ := scan_of_word h n
  exact ⟨n, q, by rw [hn, hq]⟩

theorem pairs_read {t rest : Str} {d : Dict} (h : Pairs t d rest) : ∀ (acc : Dict) (n : Nat) (tok : Str) (q : Bool),
    ((acc ++ d).map Prod.fst).Nodup → ∃ m tok' q', parsePairs 0 ⟨t, n, tok, q⟩ acc = .ok (acc ++ d, ⟨rest, m, tok', q'⟩) := by
  induction h with
  | @close g t rest hg hw =>
    intro acc n tok q _
    obtain ⟨m, q', e⟩ := gap_word hg hw n
    have e : parseToken 0 {} false ⟨g ++ t, n, tok, q⟩ = .ok (true, ⟨rest, m, [125], q'⟩) := e
    refine ⟨m, [125], q', ?_⟩
    rw [parsePairs]
    split <;> rename_i e' <;> rw [e] at e' <;> simp at e'
    rw [← e']
    simp
  | @pair g t k g' t' v t'' rest d hg hk hg' hv hok hb _ ih =>
    intro acc n tok q hnd
    obtain ⟨m1, q1, e1⟩ := gap_word hg hk n
    have e1 : parseToken 0 {} false ⟨g ++ t, n, tok, q⟩ = .ok (true, ⟨g' ++ t', m1, k, q1⟩) := e1
    obtain ⟨m2, q2, e2⟩ := gap_word hg' hv m1
    have e2 : parseToken 0 {} false ⟨g' ++ t', m1, k, q1⟩ = .ok (true, ⟨t'', m2, v, q2⟩) := e2
    have hfresh : k ∉ acc.map Prod.fst := by
      rw [List.map_append] at hnd
      have := (List.nodup_append.1 hnd).2.2
      intro h
      exact this k h k (by simp) rfl
    obtain ⟨m, tok', q', hm⟩ := ih (acc ++ [(k, v)]) m2 v q2 (by simpa using hnd)
    refine ⟨m, tok', q', ?_⟩
    rw [parsePairs]
    split <;> rename_i e' <;> rw [e1] at e' <;> simp at e'
    subst e'
    rw [if_neg hok.brace]
    split <;> rename_i e' <;> rw [e2] at e' <;> simp at e'
    subst e'
    rw [if_neg hb, trimKey_ok hok]
    simp only
    rw [set_append hfresh, hm]
    simp

/-- The table after aliases. -/
def after (m : Table) (defs : List (Str × Dict)) : Table := defs.foldl (fun m d => m.put d.1 d.2) m

theorem word_cons {t w rest : Str} (h : Word t w rest) : ∃ b r, t = b :: r := by
  cases h with
  | plain hw hr =>
    obtain ⟨b, r, rfl, -⟩ := hr
    cases w with
    | nil => exact ⟨b, r, rfl⟩
    | cons c w => exact ⟨c, _, rfl⟩
  | quoted _ => exact ⟨_, _, rfl⟩

theorem load_defs {text : Str} {defs : List (Str × Dict)} (h : IsFile text defs) : ∀ (n l : Nat) (t : Str) (q : Bool) (m : Table),
    defs.length < n → loadLoop n ⟨text, l, t, q⟩ m = .ok (after m defs) := by
  induction h with
  | @nil g hg =>
    intro n l t q m hn
    cases n with
    | zero => omega
    | succ n =>
      obtain ⟨k, hk⟩ := scan_gap hg [] l
      have e : scan 0 {} [] k = .ok (false, ⟨[], k, [], false⟩) := by
        rw [EntData.scan_eq]
        simp [Parser.skipSpace, EntData.afterSkip]
      rw [List.append_nil, e] at hk
      simp only [loadLoop, parseToken, Bool.false_eq_true, if_false, hk]
      simp [after]
  | @entry g t name g' t' t'' rest d ds hg hw hg' hb hp hnd _ ih =>
    intro n l tok q m hn
    cases n with
    | zero => omega
    | succ n =>
      obtain ⟨l1, q1, e1⟩ := gap_word hg hw l
      obtain ⟨l2, q2, e2⟩ := gap_word hg' hb l1
      obtain ⟨l3, tok3, q3, e3⟩ := pairs_read hp [] l2 [123] q2 (by simpa using hnd)
      have e1 : parseToken 0 {} false ⟨g ++ t, l, tok, q⟩ = .ok (true, ⟨g' ++ t', l1, name, q1⟩) := e1
      have e4 : parseToken 0 {} true ⟨g' ++ t', l1, name, q1⟩ = .ok (true, ⟨g' ++ t', l1, [123], q2⟩) := by simp [parseToken, e2]
      have e5 : EntData.parseEntity 0 ⟨g' ++ t', l1, [123], q2⟩ = .ok (d, ⟨rest, l3, tok3, q3⟩) := by
        simp only [EntData.parseEntity, parseToken, Bool.false_eq_true, if_false, e2, if_true]
        simpa using e3
      have ha : atEnd 0 (g' ++ t') = false := by
        obtain ⟨b, r, rfl⟩ := word_cons hb
        simp [atEnd]
      rw [loadLoop, e1]
      simp only [Outcome.ok_bind, ha, Bool.true_eq_false, Bool.false_eq_true, or_self, if_false, e4, ne_eq, not_true_eq_false, e5]
      rw [ih n l3 tok3 q3 _ (by simpa using hn)]
      rfl

theorem word_length {t w rest : Str} (h : Word t w rest) : rest.length < t.length := by
  cases h with
  | plain hw _ =>
    have := List.length_pos_iff.mpr hw.1
    simp only [List.length_append]
    omega
  | quoted _ => simp only [List.length_cons, List.length_append]; omega

theorem pairs_length {t rest : Str} {d : Dict} (h : Pairs t d rest) : rest.length < t.length := by
  induction h with
  | close _ hw => have := word_length hw; simp only [List.length_append]; omega
  | pair _ hk _ hv _ _ _ ih =>
    have := word_length hk
    have := word_length hv
    simp only [List.length_append] at *
    omega

theorem length_file {text : Str} {defs : List (Str × Dict)} (h : IsFile text defs) : defs.length ≤ text.length := by
  induction h with
  | nil => simp
  | entry _ hw _ hb hp _ _ ih =>
    have := word_length hw
    have := word_length hb
    have := pairs_length hp
    simp only [List.length_append, List.length_cons] at *
    omega

theorem after_spec (defs : List (Str × Dict)) : ∀ (m : Table) (k : Str) (d : Dict),
    after m defs k = some d ↔ LastFor defs k d ∨ m k = some d ∧ ∀ x ∈ defs, x.1 ≠ k := by
  induction defs with
  | nil => simp [after, LastFor]
  | cons x ds ih =>
    intro m k d
    have e : after m (x :: ds) = after (m.put x.1 x.2) ds := rfl
    rw [e, ih]
    constructor
    · rintro (⟨b, a, rfl, h⟩ | ⟨h1, h2⟩)
      · exact .inl ⟨x :: b, a, rfl, h⟩
      · unfold Table.put at h1
        split at h1
        · rename_i hk
          simp only [Option.some.injEq] at h1
          exact .inl ⟨[], ds, by rw [hk, ← h1]; rfl, h2⟩
        · rename_i hk
          refine .inr ⟨h1, fun y hy => ?_⟩
          rcases List.mem_cons.mp hy with rfl | hy
          · exact Ne.symm hk
          · exact h2 y hy
    · rintro (⟨b, a, e, h⟩ | ⟨h1, h2⟩)
      · cases b with
        | nil =>
          simp only [List.nil_append, List.cons.injEq] at e
          obtain ⟨rfl, rfl⟩ := e
          exact .inr ⟨by simp [Table.put], h⟩
        | cons y b =>
          simp only [List.cons_append, List.cons.injEq] at e
          exact .inl ⟨b, a, e.2, h⟩
      · exact .inr ⟨by rw [Table.put, if_neg (Ne.symm (h2 x (List.mem_cons_self ..))), h1], fun y hy => h2 y (List.mem_cons_of_mem _ hy)⟩

theorem lastFor_append (f g : List (Str × Dict)) (k : Str) (d : Dict) :
    LastFor (f ++ g) k d ↔ LastFor g k d ∨ LastFor f k d ∧ ∀ x ∈ g, x.1 ≠ k := by
  have h1 := after_spec (f ++ g) (fun _ => none) k d
  have h2 := after_spec g (after (fun _ => none) f) k d
  have h3 := after_spec f (fun _ => none) k d
  have e : after (fun _ => none) (f ++ g) = after (after (fun _ => none) f) g := by simp [after, List.foldl_append]
  rw [e, h2, h3] at h1
  simpa using h1.symm

theorem lastFor_mem {f : List (Str × Dict)} {k : Str} {d : Dict} (h : LastFor f k d) : (k, d) ∈ f := by
  obtain ⟨b, a, rfl, _⟩ := h
  simp

theorem lastFor_flatten (files : List (List (Str × Dict))) (hd : files.Pairwise fun f g => ∀ x ∈ f, ∀ y ∈ g, x.1 ≠ y.1) (k : Str) (d : Dict) :
    LastFor files.flatten k d ↔ ∃ f ∈ files, LastFor f k d := by
  induction files with
  | nil => simp [LastFor]
  | cons f fs ih =>
    rw [List.pairwise_cons] at hd
    rw [List.flatten_cons, lastFor_append, ih hd.2]
    constructor
    · rintro (⟨g, hg, h⟩ | ⟨h, _⟩)
      · exact ⟨g, List.mem_cons_of_mem _ hg, h⟩
      · exact ⟨f, List.mem_cons_self .., h⟩
    · rintro ⟨g, hg, h⟩
      rcases List.mem_cons.mp hg with rfl | hg
      · refine .inr ⟨h, fun x hx => ?_⟩
        obtain ⟨g', hg', hx⟩ := List.mem_flatten.mp hx
        exact Ne.symm (hd.1 g' hg' _ (lastFor_mem h) x hx)
      · exact .inl ⟨g, hg, h⟩

theorem addPairs_find (a : Dict) : (a.map Prod.fst).Nodup → ∀ (e : Dict) (k : Str),
    EntData.find (addPairs a e) k = if k = keyClass then (EntData.find a k).or (EntData.find e k) else (EntData.find e k).or (EntData.find a k) := by
  induction a with
  | nil => intro _ e k; simp [addPairs, EntData.find]
  | cons x a ih =>
    intro hn e k
    obtain ⟨k0, v0⟩ := x
    simp only [List.map_cons, List.nodup_cons] at hn
    rw [addPairs, ih hn.2]
    have hnone : k = k0 → EntData.find a k = none := by
      rintro rfl
      cases hf : EntData.find a k with
      | none => rfl
      | some v =>
        exfalso
        apply hn.1
        clear ih hn
        induction a with
        | nil => simp [EntData.find] at hf
        | cons y a ih =>
          obtain ⟨k1, v1⟩ := y
          simp only [EntData.find] at hf
          split at hf
          · rename_i h; simp [h]
          · exact List.mem_cons_of_mem _ (ih hf)
    by_cases hk : k = k0
    · have hnn := hnone hk
      subst hk
      simp only [hnn, EntData.find, if_true]
      by_cases hc : k = keyClass
      · simp [hc, EntData.find_set]
      · simp only [hc, if_false, false_or, Option.or_none]
        cases hf : EntData.find e k with
        | none => simp [EntData.has, hf, EntData.find_set]
        | some v => simp [EntData.has, hf]
    · have hset : EntData.find (if k0 = keyClass ∨ EntData.has e k0 = false then EntData.set e k0 v0 else e) k = EntData.find e k := by
        split
        · rw [EntData.find_set, if_neg hk]
        · rfl
      simp only [hset, EntData.find, hk, if_false]

end Verif.Alias
