import Verif.EntData.Model
import Verif.EntData.DictProps

/-! Specification and helper lemmas for the entity text format. -/

set_option linter.unusedTactic false
set_option linter.unreachableTactic false
set_option linter.unnecessarySeqFocus false

namespace Verif.EntData

open Verif.Parser (State parseToken atEnd ofString quoted scan skipSpace isBlank)

/-! ### Specification: strings that can stand between quotes -/

/-- Text that the tokenizer reads back unchanged between double quotes: no NUL; every `"` (34) is
preceded by its own backslash (92) and not followed by a carriage return or newline. -/
inductive Body : Str → Prop
  | nil : Body []
  | plain {c : UInt8} {s : Str} : c ≠ 0 → c ≠ 34 → c ≠ 92 → Body s → Body (c :: s)
  | escape {c : UInt8} {s : Str} : c ≠ 0 → c ≠ 34 → Body s → Body (92 :: c :: s)
  | quote {s : Str} : s.head? ≠ some 13 → s.head? ≠ some 10 → Body s → Body (92 :: 34 :: s)

/-- A byte that is neither white space (9-13, 32) nor beyond ASCII. -/
def Ink (b : UInt8) : Prop := b < 128 ∧ b ≠ 32 ∧ ¬ (9 ≤ b ∧ b ≤ 13)

/-- A key that can be written: readable between quotes, starting and ending with an ink byte, and not
a lone `}`. -/
structure KeyOk (k : Str) : Prop where
  body : Body k
  brace : k ≠ [125]
  first : ∃ b, k.head? = some b ∧ Ink b
  last : ∃ b, k.getLast? = some b ∧ Ink b

/-- A value that can be written: readable between quotes, possibly followed by one stray backslash, and
not a lone `}`. -/
structure ValOk (v : Str) : Prop where
  body : Body v ∨ ∃ t, v = t ++ [92] ∧ Body t
  brace : v ≠ [125]

/-- An entity that can be written. -/
structure EntityOk (d : Dict) : Prop where
  nodup : (d.map Prod.fst).Nodup
  keys : ∀ kv ∈ d, KeyOk kv.1
  values : ∀ kv ∈ d, ValOk kv.2

/-! ### Tokens -/

theorem quoted_body {t : Str} (ht : Body t) : ∀ {x u r : Str}, x ≠ [] → x.head? ≠ some 13 →
    x.head? ≠ some 10 → quoted x = .ok (u, r) → quoted (t ++ x) = .ok (t ++ u, r) := by
  induction ht with
  | nil => intro x u r _ _ _ h; exact h
  | @plain c s h0 h34 h92 _ ih =>
    intro x u r hx h1 h2 h
    have e := ih hx h1 h2 h
    rw [List.cons_append, quoted.eq_def]
    simp [Parser.QUOTE, Parser.BACKSLASH, h0, h34, h92, e]
  | @escape c s h0 h34 _ ih =>
    intro x u r hx h1 h2 h
    have e := ih hx h1 h2 h
    rw [List.cons_append, List.cons_append, quoted.eq_def]
    simp only [Parser.QUOTE, Parser.BACKSLASH]
    by_cases hc : Parser.isEscape c = true
    · simp [hc, e]
    · have h92 : c ≠ 92 := by rintro rfl; exact hc (by decide)
      have e2 : quoted (c :: (s ++ x)) = .ok (c :: (s ++ u), r) := by
        rw [quoted.eq_def]
        simp [Parser.QUOTE, Parser.BACKSLASH, h0, h34, h92, e]
      simp [hc, h34, e2]
  | @quote s hs1 hs2 _ ih =>
    intro x u r hx h1 h2 h
    have e := ih hx h1 h2 h
    rw [List.cons_append, List.cons_append, quoted.eq_def]
    have hne : Parser.isEscape 34 = false := by decide
    obtain ⟨y, z, hyz⟩ : ∃ y z, s ++ x = y :: z := List.exists_cons_of_ne_nil (by simp [hx])
    have hh : (s ++ x).head? ≠ some 13 ∧ (s ++ x).head? ≠ some 10 := by
      cases s with
      | nil => exact ⟨h1, h2⟩
      | cons a s => exact ⟨hs1, hs2⟩
    rw [hyz] at hh e ⊢
    simp at hh
    simp [Parser.QUOTE, Parser.BACKSLASH, Parser.CR, Parser.NL, hne, hh.1, hh.2, e]

theorem quoted_key {k : Str} (hk : Body k) (r : Str) : quoted (k ++ 34 :: r) = .ok (k, r) := by
  have := quoted_body hk (x := 34 :: r) (u := []) (r := r) (by simp) (by simp) (by simp)
    (by rw [quoted.eq_def]; simp [Parser.QUOTE])
  simpa using this

theorem quoted_value {v : Str} (hv : Body v ∨ ∃ t, v = t ++ [92] ∧ Body t) (r : Str) :
    quoted (v ++ 34 :: 10 :: r) = .ok (v, 10 :: r) := by
  rcases hv with hv | ⟨t, rfl, ht⟩
  · exact quoted_key hv _
  · have h1 : quoted (92 :: 34 :: 10 :: r) = .ok ([92], 10 :: r) := by
      have e2 : quoted (34 :: 10 :: r) = .ok ([], 10 :: r) := by
        rw [quoted.eq_def]; simp [Parser.QUOTE]
      rw [quoted.eq_def]
      simp [Parser.QUOTE, Parser.BACKSLASH, Parser.CR, Parser.isEscape, e2]
    have := quoted_body ht (x := 92 :: 34 :: 10 :: r) (by simp) (by simp) (by simp) h1
    simpa using this

/-- The rest of `scan` after blanks have been skipped. -/
def afterSkip (tail : Nat) (fl : Parser.Flags) : Outcome Parser.Skip → Outcome (Bool × State)
  | .error => .error
  | .ub => .ub
  | .ok (.stop r n) => .ok (false, ⟨r, n, [], false⟩)
  | .ok (.found r n) =>
    match Parser.isComment r with
    | .error => .error
    | .ub => .ub
    | .ok true =>
      if fl.comment then do
        let c ← Parser.copyComment r
        pure (true, ⟨c.2, n, c.1, false⟩)
      else if fl.optional then .ok (false, ⟨r, n, [], false⟩)
      else if fl.sameline then .error
      else
        match Parser.skipLine r with
        | .error => .error
        | .ub => .ub
        | .ok (false, r2) => .ok (false, ⟨r2, n, [], false⟩)
        | .ok (true, r2) => scan tail fl r2 (n + 1)
    | .ok false =>
      if fl.comment then .ok (false, ⟨r, n, [], false⟩)
      else Parser.copyToken r n

theorem scan_eq (tail : Nat) (fl : Parser.Flags) (r : Str) (l : Nat) :
    scan tail fl r l = afterSkip tail fl (skipSpace tail fl r l) := by
  rw [scan]
  split <;> rename_i e <;> rw [e] <;> simp only [afterSkip]
  cases Parser.isComment _ with
  | error => rfl
  | ub => rfl
  | ok f =>
    cases f with
    | false => rfl
    | true =>
      dsimp only
      split
      · rfl
      · split
        · rfl
        · split
          · rfl
          · split <;> rename_i e2 <;> rw [e2]

theorem scan_congr {tail : Nat} {fl : Parser.Flags} {r r' : Str} {l l' : Nat}
    (h : skipSpace tail fl r l = skipSpace tail fl r' l') : scan tail fl r l = scan tail fl r' l' := by
  rw [scan_eq, scan_eq, h]

theorem scan_newline {tail : Nat} {r : Str} {l : Nat} (h : tail < (10 :: r).length) :
    scan tail {} (10 :: r) l = scan tail {} r (l + 1) := by
  apply scan_congr
  rw [skipSpace]
  have : atEnd tail (10 :: r) = false := by simp [atEnd] at h ⊢; omega
  simp [this, isBlank, Parser.NL]

theorem scan_space {tail : Nat} {r : Str} {l : Nat} (h : tail < (32 :: r).length) :
    scan tail {} (32 :: r) l = scan tail {} r l := by
  apply scan_congr
  rw [skipSpace]
  have : atEnd tail (32 :: r) = false := by simp [atEnd] at h ⊢; omega
  simp [this, isBlank, Parser.NL]

theorem skipSpace_ink {tail : Nat} {b : UInt8} {r : Str} {l : Nat} (h : tail < (b :: r).length)
    (hb : isBlank b = false) : skipSpace tail {} (b :: r) l = .ok (.found (b :: r) l) := by
  rw [skipSpace]
  have : atEnd tail (b :: r) = false := by simp [atEnd] at h ⊢; omega
  simp [this, hb]

theorem scan_quoted {tail : Nat} {t r r' : Str} {l : Nat} (h : tail < (34 :: t).length)
    (hq : quoted t = .ok (r, r')) :
    scan tail {} (34 :: t) l = .ok (true, ⟨r', l, r, true⟩) := by
  rw [scan_eq, skipSpace_ink (l := l) h (by decide)]
  have hc : Parser.isComment (34 :: t) = .ok false := by
    simp [Parser.isComment, Parser.SLASH, Parser.SEMI]
  simp [afterSkip, hc, Parser.copyToken, hq]

/-- A brace on a line of its own. -/
theorem scan_brace {tail : Nat} {b : UInt8} {r : Str} {l : Nat} (h : tail < (b :: 10 :: r).length)
    (hb : b = 123 ∨ b = 125) :
    scan tail {} (b :: 10 :: r) l = .ok (true, ⟨10 :: r, l, [b], false⟩) := by
  rw [scan_eq]
  have hb' : isBlank b = false := by rcases hb with rfl | rfl <;> decide
  rw [skipSpace_ink (l := l) h hb']
  have hc : Parser.isComment (b :: 10 :: r) = .ok false := by
    rcases hb with rfl | rfl <;> simp [Parser.isComment, Parser.SLASH, Parser.SEMI]
  have hq : b ≠ 34 := by rcases hb with rfl | rfl <;> decide
  have hu : Parser.unquoted (b :: 10 :: r) = .ok ([b], 10 :: r) := by
    have : isBlank 10 = true := by decide
    simp [Parser.unquoted, hb', this]
  simp [afterSkip, hc, Parser.copyToken, hq, Parser.QUOTE, hu]

/-! ### Keys -/

theorem isSpace_ink {b : UInt8} (h : Ink b) : isSpace b = .ok false := by
  obtain ⟨h1, h2, h3⟩ := h
  have : ¬ (128 ≤ b) := UInt8.not_le.2 h1
  rw [Decidable.not_and_iff_or_not] at h3
  simp only [isSpace, this, if_false, h2, decide_false, Bool.false_or, Outcome.ok.injEq,
    Bool.and_eq_false_iff, decide_eq_false_iff_not]
  exact h3

theorem trimKey_ok {k : Str} (hk : KeyOk k) : trimKey k = .ok k := by
  obtain ⟨b, hb, hib⟩ := hk.first
  obtain ⟨c, hc, hic⟩ := hk.last
  cases k with
  | nil => simp at hb
  | cons a k =>
    simp at hb
    subst hb
    have hl : (a :: k).getLast (by simp) = c := by
      rw [List.getLast?_eq_some_getLast (by simp)] at hc; simpa using hc
    simp [trimKey, trimFront, trimBack, isSpace_ink hib, hl, isSpace_ink hic]

/-! ### Entities -/

theorem set_append {d : Dict} {k v : Str} (h : k ∉ d.map Prod.fst) : set d k v = d ++ [(k, v)] := by
  induction d with
  | nil => rfl
  | cons x d ih =>
    obtain ⟨a, w⟩ := x
    simp at h
    simp only [set, h.1, if_false, List.cons_append]
    rw [ih (by simpa using h.2)]

theorem parsePairs_write (d : Dict) : ∀ (acc : Dict) (n : Nat) (tok : Str) (q : Bool) (x : Str),
    ((acc ++ d).map Prod.fst).Nodup → (∀ kv ∈ d, KeyOk kv.1) → (∀ kv ∈ d, ValOk kv.2) →
    ∃ m, parsePairs 1 ⟨10 :: ((d.map writePair).flatten ++ 125 :: 10 :: (x ++ [0])), n, tok, q⟩ acc
      = .ok (acc ++ d, ⟨10 :: (x ++ [0]), m, [125], false⟩) := by
  induction d with
  | nil =>
    intro acc n tok q x _ _ _
    refine ⟨n + 1, ?_⟩
    rw [parsePairs]
    have e : parseToken 1 {} false ⟨10 :: (([].map writePair).flatten ++ 125 :: 10 :: (x ++ [0])), n, tok, q⟩
        = .ok (true, ⟨10 :: (x ++ [0]), n + 1, [125], false⟩) := by
      simp only [parseToken, Bool.false_eq_true, if_false, List.map_nil, List.flatten_nil, List.nil_append]
      rw [scan_newline (by simp <;> omega), scan_brace (by simp) (.inr rfl)]
    split <;> rename_i e' <;> rw [e] at e' <;> simp at e'
    rw [← e']
    simp
  | cons kv d ih =>
    intro acc n tok q x hnd hk hv
    obtain ⟨k, v⟩ := kv
    have hk1 := hk (k, v) (by simp)
    have hv1 := hv (k, v) (by simp)
    simp only at hk1 hv1
    have hfresh : k ∉ acc.map Prod.fst := by
      rw [List.map_append] at hnd
      have := (List.nodup_append.1 hnd).2.2
      intro h
      exact this k h k (by simp) rfl
    obtain ⟨m, hm⟩ := ih (acc ++ [(k, v)]) (n + 1) v true x (by simpa using hnd)
      (fun y hy => hk y (by simp [hy])) (fun y hy => hv y (by simp [hy]))
    refine ⟨m, ?_⟩
    rw [parsePairs]
    have e1 : parseToken 1 {} false ⟨10 :: ((((k, v) :: d).map writePair).flatten ++
        125 :: 10 :: (x ++ [0])), n, tok, q⟩
        = .ok (true, ⟨32 :: 34 :: (v ++ 34 :: 10 :: ((d.map writePair).flatten ++
            125 :: 10 :: (x ++ [0]))), n + 1, k, true⟩) := by
      simp only [parseToken, Bool.false_eq_true, if_false]
      rw [scan_newline (by simp <;> omega)]
      have e : (((k, v) :: d).map writePair).flatten ++ 125 :: 10 :: (x ++ [0])
          = 34 :: (k ++ 34 :: (32 :: 34 :: (v ++ 34 :: 10 :: ((d.map writePair).flatten ++
            125 :: 10 :: (x ++ [0]))))) := by
        simp [writePair]
      rw [e]
      exact scan_quoted (by simp <;> omega) (quoted_key hk1.body _)
    have e2 : parseToken 1 {} false ⟨32 :: 34 :: (v ++ 34 :: 10 :: ((d.map writePair).flatten ++
            125 :: 10 :: (x ++ [0]))), n + 1, k, true⟩
        = .ok (true, ⟨10 :: ((d.map writePair).flatten ++ 125 :: 10 :: (x ++ [0])), n + 1, v, true⟩) := by
      simp only [parseToken, Bool.false_eq_true, if_false]
      rw [scan_space (by simp <;> omega)]
      exact scan_quoted (by simp <;> omega) (quoted_value hv1.body _)
    split <;> rename_i e' <;> rw [e1] at e' <;> simp at e'
    subst e'
    rw [if_neg hk1.brace]
    split <;> rename_i e' <;> rw [e2] at e' <;> simp at e'
    subst e'
    rw [if_neg hv1.brace, trimKey_ok hk1]
    simp only
    rw [set_append hfresh, hm]
    simp

theorem parseInto_write (es : List Dict) : ∀ (acc : List Dict) (n : Nat) (tok : Str) (q : Bool) (x : Str),
    (∀ d ∈ es, EntityOk d) → (x = [] ∨ x = [10]) →
    ∃ s, parseInto 1 ⟨x ++ (write es ++ [0]), n, tok, q⟩ acc = .ok (acc ++ es, s) := by
  induction es with
  | nil =>
    intro acc n tok q x _ hx
    rw [parseInto]
    rcases hx with rfl | rfl
    · simp [write, atEnd]
    · rw [if_neg (by simp [atEnd, write])]
      have e : parseToken 1 {} true ⟨[10] ++ (write [] ++ [0]), n, tok, q⟩
          = .ok (false, ⟨[10, 0], n, [], false⟩) := by
        have e' : scan 1 {} [10, 0] n = .ok (false, ⟨[0], n + 1, [], false⟩) := by
          rw [scan_newline (by simp <;> omega), scan_eq]
          simp [skipSpace, atEnd, afterSkip]
        simp [parseToken, write, e']
      split <;> rename_i e' <;> rw [e] at e' <;> simp at e'
      simp
  | cons d es ih =>
    intro acc n tok q x hok hx
    have hd := hok d (by simp)
    obtain ⟨n1, hn1⟩ : ∃ n1, ∀ (n' : Nat), n' = n →
        scan 1 {} (x ++ (write (d :: es) ++ [0])) n' = .ok (true, ⟨10 :: ((d.map writePair).flatten ++
          125 :: 10 :: (write es ++ [0])), n1, [123], false⟩) := by
      have e : write (d :: es) ++ [0] = 123 :: 10 :: ((d.map writePair).flatten ++
          125 :: 10 :: (write es ++ [0])) := by
        simp [write, writeEntity]
      rcases hx with rfl | rfl
      · exact ⟨n, by rintro n' rfl; rw [List.nil_append, e, scan_brace (by simp) (.inl rfl)]⟩
      · exact ⟨n + 1, by
          rintro n' rfl
          rw [List.cons_append, List.nil_append, scan_newline (by simp <;> omega), e, scan_brace (by simp) (.inl rfl)]⟩
    have hn1 := hn1 n rfl
    rw [parseInto]
    rw [if_neg (by simp [atEnd, write, writeEntity] <;> omega)]
    have e : parseToken 1 {} true ⟨x ++ (write (d :: es) ++ [0]), n, tok, q⟩
        = .ok (true, ⟨x ++ (write (d :: es) ++ [0]), n, [123], false⟩) := by
      simp [parseToken, hn1]
    obtain ⟨m, hm⟩ := parsePairs_write d [] n1 [123] false (write es) (by simpa using hd.nodup)
      hd.keys hd.values
    have e2 : parseEntity 1 ⟨x ++ (write (d :: es) ++ [0]), n, [123], false⟩
        = .ok (d, ⟨10 :: (write es ++ [0]), m, [125], false⟩) := by
      simp only [parseEntity, parseToken, Bool.false_eq_true, if_false, hn1, if_true]
      simpa using hm
    split <;> rename_i e' <;> rw [e] at e' <;> simp at e'
    subst e'
    split <;> rename_i e' <;> rw [e2] at e' <;> simp at e'
    obtain ⟨rfl, rfl⟩ := e'
    obtain ⟨s, hs⟩ := ih (acc ++ [d]) m [125] false [10] (fun y hy => hok y (by simp [hy])) (.inr rfl)
    exact ⟨s, by simpa using hs⟩

end Verif.EntData
