import Verif.Parser.Spec

/-! Helper lemmas about the tokenizer. -/

namespace Verif.Parser

@[simp] theorem zero_ne_backslash : ((0 : UInt8) = BACKSLASH) ↔ False := by decide
@[simp] theorem zero_ne_quote : ((0 : UInt8) = QUOTE) ↔ False := by decide
@[simp] theorem quote_ne_backslash : (QUOTE = BACKSLASH) ↔ False := by decide
@[simp] theorem backslash_ne_quote : (BACKSLASH = QUOTE) ↔ False := by decide

theorem isBlank_iff (b : UInt8) : isBlank b = true ↔ b ≤ 32 ∨ 128 ≤ b := by
  simp [isBlank]

theorem isEscape_facts {c : UInt8} (h : isEscape c = true) : c ≠ 0 ∧ c ≠ QUOTE := by
  simp only [isEscape, Bool.or_eq_true, decide_eq_true_eq] at h
  rcases h with ((((rfl | rfl) | rfl) | rfl) | rfl) | rfl <;> decide

theorem Junk.append {a b : List UInt8} (ha : Junk a) (hb : Junk b) : Junk (a ++ b) := by
  induction ha with
  | nil => exact hb
  | blank h h0 _ ih => exact .blank h h0 ih
  | comment h hn h0 _ ih => rw [List.append_assoc]; exact .comment h hn h0 ih

theorem Junk.no_nul {a : List UInt8} (ha : Junk a) : 0 ∉ a := by
  induction ha with
  | nil => simp
  | blank h h0 _ ih => simp [Ne.symm h0, ih]
  | comment h hn h0 _ ih => simp [h0, ih]

/-- Blank bytes only. -/
def Blanks (j : List UInt8) : Prop := ∀ b ∈ j, (b ≤ 32 ∨ 128 ≤ b) ∧ b ≠ 0

theorem Blanks.junk {j : List UInt8} (h : Blanks j) : Junk j := by
  induction j with
  | nil => exact .nil
  | cons b j ih =>
    exact .blank (h b (by simp)).1 (h b (by simp)).2 (ih fun c hc => h c (by simp [hc]))

theorem skipSpace_spec {tail : Nat} {fl : Flags} {l : List UInt8} {line : Nat} {x : Skip}
    (h : skipSpace tail fl l line = .ok x) :
    ∃ j, Blanks j ∧
      match x with
      | .found r n => l = j ++ r ∧ n = line + j.count 10 ∧ tail < r.length ∧
          ∃ b r', r = b :: r' ∧ isBlank b = false
      | .stop r n => l = j ++ r ∧ n = line + j.count 10 ∧
          (r.length ≤ tail ∨ r.head? = some 0 ∨ (fl.optional = true ∧ r.head? = some 10)) := by
  induction l generalizing line with
  | nil =>
    unfold skipSpace at h
    repeat' split at h
    all_goals first
      | (simp at h; done)
      | (simp only [Outcome.ok.injEq] at h; subst h; exact ⟨[], by simp [Blanks], by simp⟩)
  | cons b bs ih =>
    unfold skipSpace at h
    split at h
    · rename_i hc
      split at h
      · rename_i hz
        simp only [Bool.or_eq_true, atEnd, decide_eq_true_eq] at hz
        repeat' split at h
        all_goals first
          | (simp at h; done)
          | (simp only [Outcome.ok.injEq] at h; subst h
             refine ⟨[], by simp [Blanks], by simp, by simp, ?_⟩
             rcases hz with hz | hz
             · exact .inl hz
             · exact .inr (.inl (by simp [hz])))
      · rename_i hz
        simp only [Bool.or_eq_true, atEnd, decide_eq_true_eq, not_or] at hz hc
        have hb : isBlank b = true := by
          rcases hc with hc | hc
          · exact absurd hc hz.1
          · exact hc
        split at h
        · rename_i hnl
          split at h
          · rename_i ho
            simp only [Outcome.ok.injEq] at h; subst h
            exact ⟨[], by simp [Blanks], by simp, by simp, .inr (.inr ⟨ho, by simp [hnl]⟩)⟩
          · split at h
            · simp at h
            · obtain ⟨j, hj, hx⟩ := ih h
              refine ⟨b :: j, ?_, ?_⟩
              · intro c hc'
                rcases List.mem_cons.1 hc' with rfl | hc'
                · exact ⟨(isBlank_iff _).1 hb, hz.2⟩
                · exact hj c hc'
              · subst hnl
                cases x with
                | found r n => exact ⟨by simp [hx.1], by rw [hx.2.1, List.count_cons_self]; omega, hx.2.2⟩
                | stop r n => exact ⟨by simp [hx.1], by rw [hx.2.1, List.count_cons_self]; omega, hx.2.2⟩
        · rename_i hnl
          obtain ⟨j, hj, hx⟩ := ih h
          refine ⟨b :: j, ?_, ?_⟩
          · intro c hc'
            rcases List.mem_cons.1 hc' with rfl | hc'
            · exact ⟨(isBlank_iff _).1 hb, hz.2⟩
            · exact hj c hc'
          · have hcnt : (b :: j).count 10 = j.count 10 := List.count_cons_of_ne hnl
            cases x with
            | found r n => exact ⟨by simp [hx.1], by rw [hx.2.1, hcnt], hx.2.2⟩
            | stop r n => exact ⟨by simp [hx.1], by rw [hx.2.1, hcnt], hx.2.2⟩
    · rename_i hc
      simp only [Bool.or_eq_true, atEnd, decide_eq_true_eq, not_or] at hc
      simp only [Outcome.ok.injEq] at h; subst h
      exact ⟨[], by simp [Blanks], by simp, by simp, by omega, b, bs, rfl, by simpa using hc.2⟩

theorem skipSpace_ne_ub (tail : Nat) (fl : Flags) (l : List UInt8) (line : Nat) :
    skipSpace tail fl l line ≠ .ub := by
  induction l generalizing line with
  | nil => unfold skipSpace; repeat' split
           all_goals simp
  | cons b bs ih =>
    unfold skipSpace
    repeat' split
    all_goals first
      | exact ih _
      | simp

theorem isComment_spec {l : List UInt8} (h : isComment l = .ok true) :
    ∃ t, l = 47 :: 47 :: t ∨ l = 59 :: t := by
  unfold isComment at h
  repeat' split at h
  all_goals simp_all

theorem copyComment_spec {l t r : List UInt8} (h : copyComment l = .ok (t, r)) :
    l = t ++ r ∧ 0 ∉ t ∧ 10 ∉ t ∧ (r.head? = some 0 ∨ r.head? = some 10) := by
  induction l generalizing t r with
  | nil => simp [copyComment] at h
  | cons b bs ih =>
    unfold copyComment at h
    split at h
    · rename_i hb
      simp only [Outcome.ok.injEq, Prod.mk.injEq] at h
      obtain ⟨rfl, rfl⟩ := h
      refine ⟨by simp, by simp, by simp, ?_⟩
      rcases hb with rfl | rfl <;> simp
    · rename_i hb
      cases hq : copyComment bs with
      | error => simp [hq] at h
      | ub => simp [hq] at h
      | ok q =>
        obtain ⟨q1, q2⟩ := q
        simp only [hq, Outcome.ok_bind, Outcome.pure_eq, Outcome.ok.injEq, Prod.mk.injEq] at h
        obtain ⟨rfl, rfl⟩ := h
        obtain ⟨a, b', c, d⟩ := ih hq
        rw [not_or] at hb
        exact ⟨by simp [a], by simp [b', Ne.symm hb.1], by simp [c, Ne.symm hb.2], d⟩

theorem skipLine_spec {l r : List UInt8} {f : Bool} (h : skipLine l = .ok (f, r)) :
    ∃ c, NL ∉ c ∧ 0 ∉ c.tail ∧ (if f then l = c ++ NL :: r else l = c ++ r ∧ r.head? = some 0 ∧ c ≠ []) := by
  induction l generalizing r f with
  | nil => simp [skipLine] at h
  | cons b bs ih =>
    unfold skipLine at h
    split at h
    · rename_i hb
      simp only [Outcome.ok.injEq, Prod.mk.injEq] at h
      obtain ⟨rfl, rfl⟩ := h
      exact ⟨[], by simp, by simp, by simp [hb]⟩
    · rename_i hb
      split at h
      · simp at h
      · rename_i c cs
        split at h
        · rename_i hc
          simp only [Outcome.ok.injEq, Prod.mk.injEq] at h
          obtain ⟨rfl, rfl⟩ := h
          exact ⟨[b], by simp [Ne.symm hb], by simp, by simp [hc]⟩
        · rename_i hc
          obtain ⟨d, h1, h2, h3⟩ := ih h
          refine ⟨b :: d, by simp [h1, Ne.symm hb], ?_, ?_⟩
          · simp only [List.tail_cons]
            cases d with
            | nil => simp
            | cons e es =>
              have he : e = c := by cases f <;> simp at h3 <;> simp [h3]
              simp only [List.tail_cons] at h2
              simp [h2, he, Ne.symm hc]
          · cases f <;> simp at h3 ⊢ <;> simp [h3]

theorem quoted_spec {l t r : List UInt8} (h : quoted l = .ok (t, r)) :
    l = t ++ QUOTE :: r ∧ 0 ∉ t := by
  fun_induction quoted l generalizing t r
  case case1 | case3 | case4 | case6 => simp at h
  case case2 => simp at h; obtain ⟨rfl, rfl⟩ := h; simp
  case case5 he _ _ ih | case7 he _ _ _ ih | case8 he _ _ _ ih | case9 he _ _ _ ih | case10 he _ _ ih =>
    rw [Outcome.bind_eq_ok] at h
    obtain ⟨⟨q1, q2⟩, hq, h⟩ := h
    simp only [Outcome.pure_eq, Outcome.ok.injEq, Prod.mk.injEq] at h
    obtain ⟨rfl, rfl⟩ := h
    obtain ⟨a, b⟩ := ih hq
    refine ⟨by simp [a], ?_⟩
    first
    | (have := (isEscape_facts he).1
       simp [b, Ne.symm this])
    | (simp [b]; done)
    | simp_all [eq_comm]

theorem unquoted_spec {l t r : List UInt8} (h : unquoted l = .ok (t, r)) :
    l = t ++ r ∧ (∀ b ∈ t, isBlank b = false) ∧ ∃ b r', r = b :: r' ∧ isBlank b = true := by
  induction l generalizing t r with
  | nil => simp [unquoted] at h
  | cons b bs ih =>
    unfold unquoted at h
    split at h
    · rename_i hb
      simp only [Outcome.ok.injEq, Prod.mk.injEq] at h
      obtain ⟨rfl, rfl⟩ := h
      exact ⟨by simp, by simp, b, bs, rfl, hb⟩
    · rename_i hb
      cases hq : unquoted bs with
      | error => simp [hq] at h
      | ub => simp [hq] at h
      | ok q =>
        obtain ⟨q1, q2⟩ := q
        simp only [hq, Outcome.ok_bind, Outcome.pure_eq, Outcome.ok.injEq, Prod.mk.injEq] at h
        obtain ⟨rfl, rfl⟩ := h
        obtain ⟨a, b', c⟩ := ih hq
        refine ⟨by simp [a], ?_, c⟩
        intro x hx
        rcases List.mem_cons.1 hx with rfl | hx
        · simpa using hb
        · exact b' x hx

/-! ### No undefined behaviour -/

theorem copyComment_ne_ub {l : List UInt8} (h : 0 ∈ l ∨ 10 ∈ l) : copyComment l ≠ .ub := by
  induction l with
  | nil => simp at h
  | cons b bs ih =>
    unfold copyComment
    split
    · simp
    · rename_i hb
      rw [not_or] at hb
      have h' : 0 ∈ bs ∨ 10 ∈ bs := by
        rcases h with h | h
        · rcases List.mem_cons.1 h with e | h
          · exact absurd e.symm hb.1
          · exact .inl h
        · rcases List.mem_cons.1 h with e | h
          · exact absurd e.symm hb.2
          · exact .inr h
      have := ih h'
      cases hq : copyComment bs <;> simp_all

theorem skipLine_ne_ub {l : List UInt8} (h : 0 ∈ l.tail ∨ 10 ∈ l) : skipLine l ≠ .ub := by
  induction l with
  | nil => simp at h
  | cons b bs ih =>
    unfold skipLine
    split
    · simp
    · rename_i hb
      split
      · simp at h; exact absurd h.symm hb
      · rename_i c cs
        split
        · simp
        · rename_i hc
          apply ih
          simp only [List.tail_cons, List.mem_cons] at h ⊢
          rcases h with (h | h) | (h | h)
          · exact absurd h.symm hc
          · exact .inl h
          · exact absurd h.symm hb
          · exact .inr h

theorem unquoted_ne_ub {l : List UInt8} (h : ∃ b ∈ l, isBlank b = true) : unquoted l ≠ .ub := by
  induction l with
  | nil => simp at h
  | cons b bs ih =>
    unfold unquoted
    split
    · simp
    · rename_i hb
      have h' : ∃ b ∈ bs, isBlank b = true := by
        obtain ⟨c, hc, hc'⟩ := h
        rcases List.mem_cons.1 hc with rfl | hc
        · exact absurd hc' hb
        · exact ⟨c, hc, hc'⟩
      have := ih h'
      cases hq : unquoted bs <;> simp_all

theorem quoted_ne_ub {l : List UInt8} (h : 0 ∈ l) : quoted l ≠ .ub := by
  fun_induction quoted l
  case case1 | case4 | case6 => simp at h
  case case2 | case3 => simp
  case case5 he _ _ ih | case7 he _ _ _ ih | case8 he _ _ _ ih | case9 he _ _ _ ih | case10 he _ _ ih =>
    rw [ne_eq, Outcome.bind_eq_ub, not_or]
    refine ⟨ih ?_, by simp⟩
    first
    | (have := (isEscape_facts he).1
       simpa [Ne.symm this] using h)
    | simpa using h
    | (rcases List.mem_cons.1 h with h | h
       · exact absurd h.symm (by assumption)
       · exact h)

/-- A quote at the end of a line always ends a quoted token. -/
theorem quoted_ne_ub_of_line {l c d : List UInt8} (h : l = c ++ QUOTE :: NL :: d) : quoted l ≠ .ub := by
  fun_induction quoted l generalizing c
  case case1 => simp at h
  case case2 | case3 => simp
  case case4 => match c, h with
    | [], h => simp at h
    | x :: c, h => simp at h
  case case6 => match c, h with
    | [], h => simp at h
    | [x], h => simp at h
    | x :: y :: c', h => simp at h
  case case5 cs he _ _ ih =>
    rw [ne_eq, Outcome.bind_eq_ub, not_or]
    refine ⟨?_, by simp⟩
    have h1 := (isEscape_facts he).2
    match c, h with
    | [], h => simp at h
    | [x], h => simp at h; exact absurd h.2.1 h1
    | x :: y :: c', h => simp at h; exact ih h.2.2
  case case7 he _ _ _ ih =>
    rw [ne_eq, Outcome.bind_eq_ub, not_or]
    refine ⟨?_, by simp⟩
    match c, h with
    | [], h => simp at h
    | x :: c', h => simp only [List.cons_append, List.cons.injEq] at h; exact ih h.2
  case case8 hd _ _ _ ih =>
    rw [ne_eq, Outcome.bind_eq_ub, not_or]
    refine ⟨?_, by simp⟩
    match c, h with
    | [], h => simp at h
    | [x], h => simp only [List.cons_append, List.nil_append, List.cons.injEq] at h
                exact absurd (.inr h.2.2.1) hd
    | x :: y :: c', h => simp only [List.cons_append, List.cons.injEq] at h; exact ih h.2.2
  case case9 ih =>
    rw [ne_eq, Outcome.bind_eq_ub, not_or]
    refine ⟨?_, by simp⟩
    match c, h with
    | [], h => simp at h
    | x :: c', h => simp only [List.cons_append, List.cons.injEq] at h; exact ih h.2
  case case10 hb _ _ ih =>
    rw [ne_eq, Outcome.bind_eq_ub, not_or]
    refine ⟨?_, by simp⟩
    match c, h with
    | [], h => simp at h; exact absurd h.1 hb
    | x :: c', h => simp only [List.cons_append, List.cons.injEq] at h; exact ih h.2

/-! ### `scan` -/

theorem copyToken_spec {r : List UInt8} {n : Nat} {f : Bool} {s : State}
    (hb : ∃ b r', r = b :: r' ∧ isBlank b = false) (h : copyToken r n = .ok (f, s)) :
    f = true ∧ s.line = n ∧
    ((s.wasQuoted = true ∧ r = QUOTE :: s.token ++ QUOTE :: s.rest ∧ 0 ∉ s.token) ∨
     (s.wasQuoted = false ∧ r = s.token ++ s.rest ∧ s.token ≠ [] ∧ (∀ b ∈ s.token, isBlank b = false) ∧
      ∃ b r', s.rest = b :: r' ∧ isBlank b = true)) := by
  obtain ⟨b, r', rfl, hbl⟩ := hb
  unfold copyToken at h
  dsimp only at h
  split at h
  · rename_i hq
    rw [Outcome.bind_eq_ok] at h
    obtain ⟨⟨q1, q2⟩, hq', h⟩ := h
    simp only [Outcome.pure_eq, Outcome.ok.injEq, Prod.mk.injEq] at h
    obtain ⟨rfl, rfl⟩ := h
    obtain ⟨a, c⟩ := quoted_spec hq'
    exact ⟨rfl, rfl, .inl ⟨rfl, by simp [a, hq], c⟩⟩
  · rw [Outcome.bind_eq_ok] at h
    obtain ⟨⟨q1, q2⟩, hq', h⟩ := h
    simp only [Outcome.pure_eq, Outcome.ok.injEq, Prod.mk.injEq] at h
    obtain ⟨rfl, rfl⟩ := h
    obtain ⟨a, c, d⟩ := unquoted_spec hq'
    refine ⟨rfl, rfl, .inr ⟨rfl, a, ?_, c, d⟩⟩
    rintro rfl
    obtain ⟨x, y, e, e'⟩ := d
    simp only [List.nil_append] at a
    rw [← a] at e
    simp only [List.cons.injEq] at e
    rw [e.1, e'] at hbl
    cases hbl

theorem comment_no_nul {c : List UInt8} (h : ∃ t, c = 47 :: 47 :: t ∨ c = 59 :: t) (h0 : 0 ∉ c.tail) :
    0 ∉ c := by
  obtain ⟨t, rfl | rfl⟩ := h
  · simpa using h0
  · simpa using h0

theorem comment_prefix {l c r : List UInt8} (h : ∃ t, l = 47 :: 47 :: t ∨ l = 59 :: t) (e : l = c ++ 10 :: r) :
    ∃ t, c = 47 :: 47 :: t ∨ c = 59 :: t := by
  obtain ⟨t, rfl | rfl⟩ := h
  · match c, e with
    | [], e => simp at e
    | [x], e => simp at e
    | x :: y :: c, e => simp at e; exact ⟨c, .inl (by simp [← e.1, ← e.2.1])⟩
  · match c, e with
    | [], e => simp at e
    | x :: c, e => simp at e; exact ⟨c, .inr (by simp [← e.1])⟩

theorem comment_prefix' {l c r : List UInt8} (h : ∃ t, l = 47 :: 47 :: t ∨ l = 59 :: t) (e : l = c ++ r)
    (h0 : r.head? = some 0) (hn : c ≠ []) :
    ∃ t, c = 47 :: 47 :: t ∨ c = 59 :: t := by
  cases r with
  | nil => simp at h0
  | cons x r =>
    simp at h0
    subst h0
    obtain ⟨t, rfl | rfl⟩ := h
    · match c, e with
      | [x], e => simp at e
      | x :: y :: c, e => simp at e; exact ⟨c, .inl (by simp [← e.1, ← e.2.1])⟩
    · match c, e with
      | x :: c, e => simp at e; exact ⟨c, .inr (by simp [← e.1])⟩

theorem isBlank_false {b : UInt8} (h : isBlank b = false) : 32 < b ∧ b < 128 := by
  have := mt (isBlank_iff b).2 (by simp [h])
  rw [not_or] at this
  exact ⟨UInt8.not_le.1 this.1, UInt8.not_le.1 this.2⟩

theorem scan_spec {tail : Nat} {fl : Flags} {rest : List UInt8} {line : Nat} {f : Bool} {s : State}
    (h : scan tail fl rest line = .ok (f, s)) :
    if f then Took fl rest line s else Skipped tail fl rest line s := by
  induction hn : rest.length using Nat.strongRecOn generalizing rest line with
  | ind n ih =>
    subst hn
    unfold scan at h
    split at h
    · simp at h
    · simp at h
    · -- stop
      rename_i r n hs
      simp only [Outcome.ok.injEq, Prod.mk.injEq] at h
      obtain ⟨rfl, rfl⟩ := h
      obtain ⟨j, hj, e, en, hr⟩ := skipSpace_spec hs
      refine ⟨rfl, rfl, j, [], hj.junk, en, by simp [e], by simp, by simp, .inl rfl, ?_⟩
      rcases hr with hr | hr | hr
      · exact .inl hr
      · exact .inr (.inl hr)
      · exact .inr (.inr (.inl hr.1))
    · rename_i r n hs
      obtain ⟨j, hj, e, en, hlen, hb⟩ := skipSpace_spec hs
      split at h
      · simp at h
      · simp at h
      · -- comment
        rename_i hc
        have hc' := isComment_spec hc
        split at h
        · rename_i hfl
          rw [Outcome.bind_eq_ok] at h
          obtain ⟨⟨q1, q2⟩, hq', h⟩ := h
          simp only [Outcome.pure_eq, Outcome.ok.injEq, Prod.mk.injEq] at h
          obtain ⟨rfl, rfl⟩ := h
          obtain ⟨e1, h1, h2, h3⟩ := copyComment_spec hq'
          refine ⟨j, hj.junk, en, .inl ⟨hfl, rfl, by simp [e, e1], ?_, h2, h1, h3⟩⟩
          dsimp only at e1 ⊢
          rcases h3 with h3 | h3
          · refine comment_prefix' hc' e1 h3 ?_
            rintro rfl
            obtain ⟨t, rfl | rfl⟩ := hc' <;> simp at e1 <;> simp [← e1] at h3
          · cases q2 with
            | nil => simp at h3
            | cons x q2 => simp at h3; subst h3; exact comment_prefix hc' e1
        · rename_i hfl
          split at h
          · rename_i ho
            simp only [Outcome.ok.injEq, Prod.mk.injEq] at h
            obtain ⟨rfl, rfl⟩ := h
            exact ⟨rfl, rfl, j, [], hj.junk, en, by simp [e], by simp, by simp, .inl rfl,
              .inr (.inr (.inl ho))⟩
          · split at h
            · simp at h
            · split at h
              · simp at h
              · simp at h
              · rename_i r2 hl
                simp only [Outcome.ok.injEq, Prod.mk.injEq] at h
                obtain ⟨rfl, rfl⟩ := h
                obtain ⟨c, h1, h2, h3, h4, h5⟩ := skipLine_spec hl
                have hcp := comment_prefix' hc' h3 h4 h5
                exact ⟨rfl, rfl, j, c, hj.junk, en, by simp [e, h3], h1, comment_no_nul hcp h2,
                  .inr hcp, .inr (.inl h4)⟩
              · rename_i r2 hl
                obtain ⟨c, h1, h2, h3⟩ := skipLine_spec hl
                simp only [if_true] at h3
                have hcp := comment_prefix hc' h3
                have hjc : Junk (j ++ (c ++ 10 :: [])) :=
                  hj.junk.append (.comment hcp h1 (comment_no_nul hcp h2) .nil)
                have hl1 := skipSpace_le hs
                have hl2 := skipLine_lt hl
                have hcnt : (j ++ (c ++ 10 :: [])).count (10 : UInt8) = j.count 10 + 1 := by
                  rw [List.count_append, List.count_append, List.count_eq_zero_of_not_mem h1]
                  simp
                have hsub := ih r2.length (by omega) h rfl
                cases f with
                | true =>
                  obtain ⟨k, hk, hln, hrest⟩ := hsub
                  refine ⟨_, hjc.append hk, ?_, ?_⟩
                  · rw [hln, List.count_append, hcnt, en]; omega
                  · rcases hrest with ⟨a1, a2, a3, a4⟩ | ⟨a1, a2, a3, a4⟩ | ⟨a1, a2, a3, a4⟩
                    · exact .inl ⟨a1, a2, by simp [e, h3, a3], a4⟩
                    · exact .inr (.inl ⟨a1, a2, by simp [e, h3, a3], a4⟩)
                    · exact .inr (.inr ⟨a1, a2, by rw [e, h3, a3]; simp, a4⟩)
                | false =>
                  obtain ⟨t1, t2, k, c', hk, hln, hrest, a4⟩ := hsub
                  refine ⟨t1, t2, _, c', hjc.append hk, ?_, ?_, a4⟩
                  · rw [hln, List.count_append, hcnt, en]; omega
                  · simp [e, h3, hrest]
      · rename_i hc
        split at h
        · rename_i hfl
          simp only [Outcome.ok.injEq, Prod.mk.injEq] at h
          obtain ⟨rfl, rfl⟩ := h
          exact ⟨rfl, rfl, j, [], hj.junk, en, by simp [e], by simp, by simp, .inl rfl,
              .inr (.inr (.inr hfl))⟩
        · rename_i hfl
          obtain ⟨rfl, h2, h3⟩ := copyToken_spec hb h
          refine ⟨j, hj.junk, by rw [h2, en], ?_⟩
          have hfl' : fl.comment = false := by simpa using hfl
          rcases h3 with ⟨a1, a2, a3⟩ | ⟨a1, a2, a3, a4, b, r', a5, a6⟩
          · exact .inr (.inl ⟨hfl', a1, by simp [e, a2], a3⟩)
          · exact .inr (.inr ⟨hfl', a1, by rw [e, a2]; simp, a3, fun b hb => isBlank_false (a4 b hb),
              b, r', a5, (isBlank_iff b).1 a6⟩)

theorem scan_ne_ub {tail : Nat} {fl : Flags} {rest : List UInt8} {line : Nat} (h0 : 0 ∈ rest) :
    scan tail fl rest line ≠ .ub := by
  induction hn : rest.length using Nat.strongRecOn generalizing rest line with
  | ind n ih =>
    subst hn
    unfold scan
    split
    · simp
    · rename_i hs; exact absurd hs (skipSpace_ne_ub _ _ _ _)
    · simp
    · rename_i r n hs
      obtain ⟨j, hj, e, en, hlen, b, r', rfl, hbl⟩ := skipSpace_spec hs
      have hb0 : b ≠ 0 := by rintro rfl; exact absurd hbl (by decide)
      have hr0 : 0 ∈ b :: r' := by
        rw [e] at h0
        rcases List.mem_append.1 h0 with h | h
        · exact absurd h hj.junk.no_nul
        · exact h
      have hr0' : 0 ∈ r' := by simpa [Ne.symm hb0] using hr0
      split
      · simp
      · rename_i hc
        unfold isComment at hc
        repeat' split at hc
        all_goals simp_all
      · rename_i hc
        have hc' := isComment_spec hc
        split
        · rw [ne_eq, Outcome.bind_eq_ub, not_or]
          exact ⟨copyComment_ne_ub (.inl hr0), by simp⟩
        · split
          · simp
          · split
            · simp
            · split
              · simp
              · rename_i hl; exact absurd hl (skipLine_ne_ub (.inl hr0'))
              · simp
              · rename_i r2 hl
                obtain ⟨c, h1, h2, h3⟩ := skipLine_spec hl
                simp only [if_true] at h3
                have hcp := comment_prefix hc' h3
                have hc0 := comment_no_nul hcp h2
                have hl1 := skipSpace_le hs
                have hl2 := skipLine_lt hl
                refine ih r2.length (by omega) ?_ rfl
                rw [h3] at hr0
                simpa [hc0, NL] using hr0
      · split
        · simp
        · unfold copyToken
          dsimp only
          split
          · rw [ne_eq, Outcome.bind_eq_ub, not_or]
            exact ⟨quoted_ne_ub hr0', by simp⟩
          · rw [ne_eq, Outcome.bind_eq_ub, not_or]
            exact ⟨unquoted_ne_ub ⟨0, hr0, by decide⟩, by simp⟩

theorem Took.keeps_nul {fl : Flags} {rest : List UInt8} {line : Nat} {s : State}
    (h : Took fl rest line s) (h0 : 0 ∈ rest) : 0 ∈ s.rest := by
  obtain ⟨j, hj, -, ⟨-, -, e, -, -, hz, -⟩ | ⟨-, -, e, hz⟩ | ⟨-, -, e, -, hz, -⟩⟩ := h
  · rw [e] at h0; simpa [hj.no_nul, hz] using h0
  · rw [e] at h0; simpa [hj.no_nul, hz] using h0
  · have : 0 ∉ s.token := fun h => absurd (hz 0 h).1 (by decide)
    rw [e] at h0; simpa [hj.no_nul, this] using h0

theorem Skipped.keeps_nul {tail : Nat} {fl : Flags} {rest : List UInt8} {line : Nat} {s : State}
    (h : Skipped tail fl rest line s) (h0 : 0 ∈ rest) : 0 ∈ s.rest := by
  obtain ⟨-, -, j, c, hj, -, e, -, hz, -⟩ := h
  rw [e] at h0; simpa [hj.no_nul, hz] using h0

theorem scan_progress {tail : Nat} {fl : Flags} {rest : List UInt8} {line : Nat} {s : State}
    (h : scan tail fl rest line = .ok (true, s)) : s.rest.length < rest.length := by
  obtain ⟨j, -, -, ⟨-, -, e, ⟨t, ht⟩, -⟩ | ⟨-, -, e, -⟩ | ⟨-, -, e, ht, -⟩⟩ := scan_spec h
  · rw [e]; rcases ht with ht | ht <;> simp [ht] <;> omega
  · rw [e]; simp; omega
  · have := List.length_pos_iff.2 ht
    rw [e]; simp; omega

/-- In the contents of a file that end in a newline, only an unterminated quoted token reads past
the end. -/
theorem scan_file_ub {fl : Flags} {rest : List UInt8} {line : Nat}
    (hnl : rest.getLast? = some 10) (h : scan 0 fl rest line = .ub) :
    ∃ junk b, Junk junk ∧ rest = junk ++ 34 :: b ∧ quoted b = .ub := by
  induction hn : rest.length using Nat.strongRecOn generalizing rest line with
  | ind n ih =>
    subst hn
    unfold scan at h
    split at h
    · simp at h
    · rename_i hs; exact absurd hs (skipSpace_ne_ub _ _ _ _)
    · simp at h
    · rename_i r n hs
      obtain ⟨j, hj, e, en, hlen, b, r', rfl, hbl⟩ := skipSpace_spec hs
      have hb0 : b ≠ 10 := by rintro rfl; exact absurd hbl (by decide)
      have hlast : (b :: r').getLast? = some 10 := by
        rw [e, List.getLast?_append] at hnl
        cases hh : (b :: r').getLast? with
        | none => simp at hh
        | some v => rw [hh] at hnl; simpa using hnl
      have hnl' : 10 ∈ r' := by
        have := List.mem_of_getLast? hlast
        simpa [Ne.symm hb0] using this
      split at h
      · simp at h
      · rename_i hc
        unfold isComment at hc
        repeat' split at hc
        all_goals simp_all
      · rename_i hc
        have hc' := isComment_spec hc
        split at h
        · rw [Outcome.bind_eq_ub] at h
          rcases h with h | h
          · exact absurd h (copyComment_ne_ub (.inr (by simp [hnl'])))
          · simp at h
        · split at h
          · simp at h
          · split at h
            · simp at h
            · split at h
              · simp at h
              · rename_i hl; exact absurd hl (skipLine_ne_ub (.inr (by simp [hnl'])))
              · simp at h
              · rename_i r2 hl
                obtain ⟨c, h1, h2, h3⟩ := skipLine_spec hl
                simp only [if_true] at h3
                have hcp := comment_prefix hc' h3
                have hc0 := comment_no_nul hcp h2
                have hl1 := skipSpace_le hs
                have hl2 := skipLine_lt hl
                by_cases hr2 : r2 = []
                · subst hr2
                  unfold scan at h
                  simp [skipSpace] at h
                  repeat' split at h
                  all_goals simp_all
                · have hjc : Junk (j ++ (c ++ 10 :: [])) :=
                    hj.junk.append (.comment hcp h1 hc0 .nil)
                  have : r2.getLast? = some 10 := by
                    rw [h3, show c ++ NL :: r2 = (c ++ [NL]) ++ r2 by simp, List.getLast?_append] at hlast
                    cases hh : r2.getLast? with
                    | none => simp at hh; exact absurd hh hr2
                    | some v => rw [hh] at hlast; simpa using hlast
                  obtain ⟨k, b', hk, e', hq⟩ := ih r2.length (by omega) this h rfl
                  exact ⟨_, b', hjc.append hk, by simp [e, h3, e'], hq⟩
      · split at h
        · simp at h
        · unfold copyToken at h
          dsimp only at h
          split at h
          · rename_i hq
            rw [Outcome.bind_eq_ub] at h
            rcases h with h | h
            · exact ⟨j, r', hj.junk, by simp [e, hq], h⟩
            · simp at h
          · rw [Outcome.bind_eq_ub] at h
            rcases h with h | h
            · exact absurd h (unquoted_ne_ub ⟨10, by simp [hnl'], by decide⟩)
            · simp at h

end Verif.Parser
