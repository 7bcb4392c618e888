import Verif.Parser.Lemmas

/-! Properties of the tokenizer: C20, C21 and C65-C67. -/

namespace Verif.Parser

/-! ### C20 -/

/-- **C20**: as long as a NUL lies ahead of the position (the terminator, or an earlier one), a call
with any flags performs no out-of-bounds read, and afterwards the position is further along in the same
memory with the NUL still ahead, so the next call is safe too. -/
theorem tokenizer_in_bounds (tail : Nat) (fl : Flags) (peek : Bool) (p : State) (h0 : 0 ∈ p.rest) :
    parseToken tail fl peek p ≠ .ub ∧
    ∀ f s, parseToken tail fl peek p = .ok (f, s) → 0 ∈ s.rest ∧ s.rest <:+ p.rest := by
  have hub := scan_ne_ub (tail := tail) (fl := fl) (line := p.line) h0
  cases peek with
  | true =>
    simp only [parseToken, if_true]
    refine ⟨?_, ?_⟩
    · rw [ne_eq, Outcome.bind_eq_ub, not_or]; exact ⟨hub, by simp⟩
    · intro f s h
      rw [Outcome.bind_eq_ok] at h
      obtain ⟨q, -, h⟩ := h
      simp only [Outcome.pure_eq, Outcome.ok.injEq, Prod.mk.injEq] at h
      rw [← h.2]; exact ⟨h0, List.suffix_rfl⟩
  | false =>
    simp only [parseToken, Bool.false_eq_true, if_false]
    refine ⟨hub, ?_⟩
    intro f s h
    have hs := scan_spec h
    cases f with
    | true =>
      refine ⟨Took.keeps_nul hs h0, ?_⟩
      obtain ⟨j, -, -, ⟨-, -, e, -⟩ | ⟨-, -, e, -⟩ | ⟨-, -, e, -⟩⟩ := hs
      · exact ⟨_, e.symm⟩
      · exact ⟨j ++ 34 :: s.token ++ [34], by simp [e]⟩
      · exact ⟨_, e.symm⟩
    | false =>
      refine ⟨Skipped.keeps_nul hs h0, ?_⟩
      obtain ⟨-, -, j, c, -, -, e, -⟩ := hs
      exact ⟨_, e.symm⟩

/-- A history of calls in which every `pop` has a matching earlier `push`. `d` is the number of states
already on the stack. -/
def Balanced : Nat → List Call → Prop
  | _, [] => True
  | d, .read _ _ :: cs => Balanced d cs
  | d, .push :: cs => Balanced (d + 1) cs
  | d, .pop :: cs => 0 < d ∧ Balanced (d - 1) cs

theorem calls_safe (tail : Nat) (cs : List Call) : ∀ (s : Stacked), 0 ∈ s.cur.rest →
    (∀ x ∈ s.saved, 0 ∈ x.1) → Balanced s.saved.length cs → s.calls tail cs ≠ .ub := by
  induction cs with
  | nil => intro s _ _ _; simp [Stacked.calls]
  | cons c cs ih =>
    intro s h0 hs hb
    unfold Stacked.calls
    rw [ne_eq, Outcome.bind_eq_ub, not_or]
    cases c with
    | read fl peek =>
      have ht := tokenizer_in_bounds tail fl peek s.cur h0
      refine ⟨?_, ?_⟩
      · simp only [Stacked.call]
        rw [Outcome.bind_eq_ub, not_or]
        exact ⟨ht.1, by simp⟩
      · rintro ⟨s', h, h'⟩
        simp only [Stacked.call] at h
        rw [Outcome.bind_eq_ok] at h
        obtain ⟨⟨f, q⟩, hq, h⟩ := h
        simp only [Outcome.pure_eq, Outcome.ok.injEq] at h
        subst h
        exact absurd h' (ih ⟨q, s.saved⟩ (ht.2 f q hq).1 hs hb)
    | push =>
      refine ⟨by simp [Stacked.call], ?_⟩
      rintro ⟨s', h, h'⟩
      simp only [Stacked.call, Outcome.ok.injEq] at h
      subst h
      refine absurd h' (ih ⟨s.cur, (s.cur.rest, s.cur.line) :: s.saved⟩ h0 ?_ hb)
      intro x hx
      rcases List.mem_cons.1 hx with rfl | hx
      · exact h0
      · exact hs x hx
    | pop =>
      obtain ⟨cur, saved⟩ := s
      cases saved with
      | nil => simp [Balanced] at hb
      | cons x saved =>
        obtain ⟨r, n⟩ := x
        refine ⟨by simp [Stacked.call], ?_⟩
        rintro ⟨s', h, h'⟩
        simp only [Stacked.call, Outcome.ok.injEq] at h
        subst h
        refine absurd h' (ih ⟨{ cur with rest := r, line := n }, saved⟩ (hs (r, n) (by simp))
          (fun x hx => hs x (by simp [hx])) ?_)
        simpa [Balanced] using hb

/-- **C20** over histories: tokenizing a C string or `std::string` with any bytes in it, with any
history of reads, peeks, saves and restores, never reads past the terminator. -/
theorem string_histories_in_bounds (tail : Nat) (text : List UInt8) (cs : List Call) (hb : Balanced 0 cs) :
    Stacked.calls tail { cur := ofString text } cs ≠ .ub :=
  calls_safe tail cs _ (by simp [ofString]) (by simp) hb

/-- **C20**, progress: a successful read moves the position forward by at least one byte. -/
theorem successful_read_progresses (tail : Nat) (fl : Flags) (p s : State)
    (h : parseToken tail fl false p = .ok (true, s)) :
    ∃ a, a ≠ [] ∧ p.rest = a ++ s.rest := by
  simp only [parseToken, Bool.false_eq_true, if_false] at h
  obtain ⟨j, -, -, ⟨-, -, e, ⟨t, ht⟩, -⟩ | ⟨-, -, e, -⟩ | ⟨-, -, e, ht, -⟩⟩ := scan_spec h
  · refine ⟨_, ?_, e⟩
    rcases ht with ht | ht <;> simp [ht]
  · exact ⟨j ++ 34 :: s.token ++ [34], by simp, by simp [e]⟩
  · exact ⟨_, by simp [ht], e⟩

-- `{"a\"b" c` with nested save, peek and restore; a line comment; every call stays inside
example : Balanced 0 [.read {} false, .push, .read {} true, .push, .read {} false, .pop, .pop] := by
  simp [Balanced]
-- text: `x "a"` ; the token is `x`
example : parseToken 1 {} false (ofString [120, 32, 34, 97, 34])
    = .ok (true, ⟨[32, 34, 97, 34, 0], 1, [120], false⟩) := by decide +kernel

/-! ### C21 -/

/-- **C21**: a peek succeeds or fails exactly as the following read with the same flags does, shows
the same token, and leaves position and line number where they were. -/
theorem peek_shows_next_read (tail : Nat) (fl : Flags) (p p1 : State) (f : Bool) :
    parseToken tail fl true p = .ok (f, p1) ↔
      p1.rest = p.rest ∧ p1.line = p.line ∧
      ∃ s, parseToken tail fl false p1 = .ok (f, s) ∧ s.token = p1.token ∧ s.wasQuoted = p1.wasQuoted := by
  simp only [parseToken, if_true, Bool.false_eq_true, if_false]
  constructor
  · intro h
    rw [Outcome.bind_eq_ok] at h
    obtain ⟨⟨f', q⟩, hq, h⟩ := h
    simp only [Outcome.pure_eq, Outcome.ok.injEq, Prod.mk.injEq] at h
    obtain ⟨rfl, rfl⟩ := h
    exact ⟨rfl, rfl, q, hq, rfl, rfl⟩
  · rintro ⟨e1, e2, s, hs, e3, e4⟩
    rw [Outcome.bind_eq_ok]
    rw [e1, e2] at hs
    refine ⟨_, hs, ?_⟩
    simp [e3, e4, ← e1, ← e2]

/-- **C21**: a peek runs into an error exactly when the read would. -/
theorem peek_fails_with_next_read (tail : Nat) (fl : Flags) (p : State) :
    parseToken tail fl true p = .error ↔ parseToken tail fl false p = .error := by
  simp only [parseToken, if_true, Bool.false_eq_true, if_false]
  rw [Outcome.bind_eq_error]; simp

/-- Well-nested histories. -/
inductive Nested : List Call → Prop
  | nil : Nested []
  | read (fl : Flags) (peek : Bool) {cs : List Call} : Nested cs → Nested (.read fl peek :: cs)
  | block {a b : List Call} : Nested a → Nested b → Nested (.push :: (a ++ .pop :: b))

theorem calls_append {tail : Nat} {a b : List Call} {s t : Stacked} (h : s.calls tail (a ++ b) = .ok t) :
    ∃ u, s.calls tail a = .ok u ∧ u.calls tail b = .ok t := by
  induction a generalizing s with
  | nil => exact ⟨s, rfl, h⟩
  | cons c a ih =>
    simp only [List.cons_append, Stacked.calls] at h ⊢
    rw [Outcome.bind_eq_ok] at h
    obtain ⟨s', h1, h2⟩ := h
    obtain ⟨u, h3, h4⟩ := ih h2
    exact ⟨u, by rw [h1]; exact h3, h4⟩

theorem nested_keeps_stack {tail : Nat} {cs : List Call} (hn : Nested cs) :
    ∀ {s t : Stacked}, s.calls tail cs = .ok t → t.saved = s.saved := by
  induction hn with
  | nil =>
    intro s t h
    simp only [Stacked.calls, Outcome.ok.injEq] at h
    rw [h]
  | read fl peek _ ih =>
    intro s t h
    simp only [Stacked.calls, Stacked.call] at h
    rw [Outcome.bind_eq_ok] at h
    obtain ⟨s', h1, h2⟩ := h
    rw [Outcome.bind_eq_ok] at h1
    obtain ⟨q, -, h1⟩ := h1
    simp only [Outcome.pure_eq, Outcome.ok.injEq] at h1
    subst h1
    have := ih h2
    exact this
  | block _ _ iha ihb =>
    intro s t h
    simp only [Stacked.calls, Stacked.call, Outcome.ok_bind] at h
    obtain ⟨u, h1, h2⟩ := calls_append h
    have e := iha h1
    simp only [Stacked.calls, Stacked.call, e, Outcome.ok_bind] at h2
    have := ihb h2
    exact this

/-- **C21**, saved states: a save, any well-nested calls, and a restore bring back the position and
line number of the save, and what was on the stack before. -/
theorem save_restore (tail : Nat) (cs : List Call) (s t : Stacked) (hn : Nested cs)
    (h : s.calls tail (.push :: (cs ++ [.pop])) = .ok t) :
    t.cur.rest = s.cur.rest ∧ t.cur.line = s.cur.line ∧ t.saved = s.saved := by
  simp only [Stacked.calls, Stacked.call, Outcome.ok_bind] at h
  obtain ⟨u, h1, h2⟩ := calls_append h
  have e := nested_keeps_stack hn h1
  simp only [Stacked.calls, Stacked.call, e, Outcome.ok_bind, Outcome.ok.injEq] at h2
  subst h2
  exact ⟨rfl, rfl, rfl⟩

example : Nested [.read {} false, .push, .read {} true, .pop, .read { optional := true } false] :=
  .read _ _ (.block (a := [.read {} true]) (.read _ _ .nil) (.read _ _ .nil))
-- peeking at `x y` shows `x` and stays put
example : parseToken 1 {} true (ofString [120, 32, 121])
    = .ok (true, ⟨[120, 32, 121, 0], 1, [120], false⟩) := by decide +kernel

/-! ### C66 -/

/-- **C66**: an ordinary successful read returns text of the input byte for byte: behind blanks and
comments stands either `"`, the token, `"`, or the token itself, a non-empty run of non-blank bytes up
to the next blank. -/
theorem token_is_verbatim (tail : Nat) (fl : Flags) (hfl : fl.comment = false) (p s : State)
    (h : parseToken tail fl false p = .ok (true, s)) :
    ∃ junk, Junk junk ∧
      ((s.wasQuoted = true ∧ p.rest = junk ++ 34 :: s.token ++ 34 :: s.rest) ∨
       (s.wasQuoted = false ∧ p.rest = junk ++ s.token ++ s.rest ∧ s.token ≠ [] ∧
         (∀ b ∈ s.token, 32 < b ∧ b < 128) ∧ ∃ b r, s.rest = b :: r ∧ (b ≤ 32 ∨ 128 ≤ b))) := by
  simp only [parseToken, Bool.false_eq_true, if_false] at h
  obtain ⟨j, hj, -, ⟨hc, -⟩ | ⟨-, hq, e, -⟩ | ⟨-, hq, e, ht⟩⟩ := scan_spec h
  · simp [hfl] at hc
  · exact ⟨j, hj, .inl ⟨hq, e⟩⟩
  · exact ⟨j, hj, .inr ⟨hq, e, ht⟩⟩

/-- **C66**: an ordinary read reports that there is no token only when nothing but blanks and comments
is left before the end of the text (or before a NUL in it). -/
theorem no_token_means_nothing_left (tail : Nat) (p s : State)
    (h : parseToken tail {} false p = .ok (false, s)) :
    ∃ junk c, Junk junk ∧ p.rest = junk ++ c ++ s.rest ∧
      (c = [] ∨ ((∃ t, c = 47 :: 47 :: t ∨ c = 59 :: t) ∧ 10 ∉ c)) ∧
      (s.rest.length ≤ tail ∨ s.rest.head? = some 0) := by
  simp only [parseToken, Bool.false_eq_true, if_false] at h
  obtain ⟨-, -, j, c, hj, -, e, hn, -, hc, hr⟩ := scan_spec h
  refine ⟨j, c, hj, e, ?_, ?_⟩
  · rcases hc with hc | hc
    · exact .inl hc
    · exact .inr ⟨hc, hn⟩
  · rcases hr with hr | hr | hr | hr
    · exact .inl hr
    · exact .inr hr
    · cases hr
    · cases hr

/-- **C66**, comments: with `PARSE_COMMENT` a successful read returns exactly one comment, from its
first byte to the end of its line. -/
theorem comment_is_verbatim (tail : Nat) (fl : Flags) (hfl : fl.comment = true) (p s : State)
    (h : parseToken tail fl false p = .ok (true, s)) :
    ∃ junk, Junk junk ∧ p.rest = junk ++ s.token ++ s.rest ∧
      (∃ t, s.token = 47 :: 47 :: t ∨ s.token = 59 :: t) ∧ 10 ∉ s.token ∧
      (s.rest.head? = some 0 ∨ s.rest.head? = some 10) := by
  simp only [parseToken, Bool.false_eq_true, if_false] at h
  obtain ⟨j, hj, -, ⟨-, -, e, a, b, -, d⟩ | ⟨hc, -⟩ | ⟨hc, -⟩⟩ := scan_spec h
  · exact ⟨j, hj, e, a, b, d⟩
  · simp [hfl] at hc
  · simp [hfl] at hc

-- ` // c⏎"a\"b" x` : the token is the text `a\"b` between the quotes, on line 2
example : parseToken 1 {} false (ofString [32, 47, 47, 32, 99, 10, 34, 97, 92, 34, 98, 34, 32, 120])
    = .ok (true, ⟨[32, 120, 0], 2, [97, 92, 34, 98], true⟩) := by decide +kernel
-- `; all` : no token left
example : parseToken 1 {} false (ofString [59, 32, 97]) = .ok (false, ⟨[0], 1, [], false⟩) := by
  decide +kernel
-- `// c⏎x` read as a comment
example : parseToken 1 { comment := true } false (ofString [47, 47, 32, 99, 10, 120])
    = .ok (true, ⟨[10, 120, 0], 1, [47, 47, 32, 99], false⟩) := by decide +kernel

/-! ### C67 -/

/-- **C67**, partial: the line number advances by the number of newlines consumed, as long as the token
itself contains none. (The missing part, newlines inside quoted tokens, is false:
`newlines_in_quotes_not_counted`.) -/
theorem line_counts_newlines_partial (tail : Nat) (fl : Flags) (p s : State) (f : Bool)
    (h : parseToken tail fl false p = .ok (f, s)) (hn : 10 ∉ s.token) :
    ∃ a, p.rest = a ++ s.rest ∧ s.line = p.line + a.count 10 := by
  simp only [parseToken, Bool.false_eq_true, if_false] at h
  have hs := scan_spec h
  have c0 := List.count_eq_zero_of_not_mem hn
  cases f with
  | true =>
    obtain ⟨j, hj, hl, ⟨-, -, e, -⟩ | ⟨-, -, e, -⟩ | ⟨-, -, e, -⟩⟩ := hs
    · exact ⟨_, e, by simp [hl, c0]⟩
    · exact ⟨j ++ 34 :: s.token ++ [34], by simp [e], by simp [hl, c0]⟩
    · exact ⟨_, e, by simp [hl, c0]⟩
  | false =>
    obtain ⟨-, -, j, c, hj, hl, e, hc, -⟩ := hs
    exact ⟨_, e, by simp [hl, List.count_eq_zero_of_not_mem hc]⟩

/-- **C67** fails for quoted tokens that span lines: `"a⏎b"` leaves the line number at 1. -/
theorem newlines_in_quotes_not_counted :
    parseToken 1 {} false (ofString [34, 97, 10, 98, 34]) = .ok (true, ⟨[0], 1, [97, 10, 98], true⟩) := by
  decide +kernel

example : parseToken 1 {} false (ofString [10, 59, 10, 10, 120])
    = .ok (true, ⟨[0], 4, [120], false⟩) := by decide +kernel

/-! ### C65 -/

/-- **C65** fails: the contents of a file are not NUL-terminated, and a file whose last byte belongs to
a token, here `}`, is read past its end. -/
theorem file_read_past_end : parseToken 0 {} false (ofFile [125]) = .ub := by decide +kernel

/-- **C65**, partial: in a file that ends in a newline, an out-of-bounds read happens only at a quoted
token that has no `"` at the end of a line behind it (in particular the token is unterminated). Missing:
files that do not end in a newline, for which the property is false. -/
theorem file_in_bounds_partial (fl : Flags) (peek : Bool) (p : State) (hnl : p.rest.getLast? = some 10)
    (h : parseToken 0 fl peek p = .ub) :
    ∃ junk b, Junk junk ∧ p.rest = junk ++ 34 :: b ∧ ∀ c d, b ≠ c ++ 34 :: 10 :: d := by
  have h' : scan 0 fl p.rest p.line = .ub := by
    cases peek with
    | true =>
      simp only [parseToken, if_true] at h
      rw [Outcome.bind_eq_ub] at h
      rcases h with h | h
      · exact h
      · simp at h
    | false => simpa [parseToken] using h
  obtain ⟨j, b, hj, e, hq⟩ := scan_file_ub hnl h'
  exact ⟨j, b, hj, e, fun c d hb => quoted_ne_ub_of_line hb hq⟩

-- a file `}⏎` is read safely; a file `"⏎` is not
example : parseToken 0 {} false (ofFile [125, 10]) = .ok (true, ⟨[10], 1, [125], false⟩) := by
  decide +kernel
example : parseToken 0 {} false (ofFile [34, 10]) = .ub := by decide +kernel

end Verif.Parser
