import Verif.TexRemap.Spec
import Verif.SurfLights.RadLemmas

/-! Lemmas about lines in files. -/

namespace Verif.TexRemap

open Verif.Parser (State parseToken ofFile Flags atEnd scan skipSpace isBlank)
open Verif.SurfLights.Spec (Line Space Plain)
open Verif.SurfLights (unquoted_plain blank_iff)
open Spec

theorem skip_blanks {fl : Flags} {s r : Text} {l : Nat} (hs : Space s) (hr : 1 ≤ r.length) :
    skipSpace 0 fl (s ++ r) l = skipSpace 0 fl r l := by
  induction s with
  | nil => rfl
  | cons b s ih =>
    have hb := hs b (by simp)
    have ih := ih fun c hc => hs c (by simp [hc])
    rw [List.cons_append, skipSpace]
    simp only [Parser.atEnd, List.length_cons, Nat.le_zero, Nat.add_eq_zero_iff, Nat.one_ne_zero, and_false, decide_false, Bool.false_or,
      blank_iff.mpr hb.1, if_true, hb.2.1, Parser.NL, hb.2.2, if_false, ih, Bool.false_eq_true]

theorem scan_word {fl : Flags} (hf : fl.comment = false) (w : Text) (hw : Plain w) (b : UInt8) (hb : isBlank b = true) (r : Text) (l : Nat) :
    scan 0 fl (w ++ b :: r) l = .ok (true, ⟨b :: r, l, w, false⟩) := by
  obtain ⟨h1, h2, h3, h4, h5⟩ := hw
  rw [EntData.scan_eq]
  have hu := unquoted_plain b hb r w h2
  cases w with
  | nil => exact absurd rfl h1
  | cons c w =>
    have hc := h2 c (by simp)
    have hcb : isBlank c = false := by
      simp only [isBlank, Bool.or_eq_false_iff, decide_eq_false_iff_not, UInt8.not_le]
      exact hc
    have e : skipSpace 0 fl (c :: w ++ b :: r) l = .ok (.found (c :: w ++ b :: r) l) := by
      simp [skipSpace, Parser.atEnd, hcb]
    have hb47 : b ≠ 47 := by rintro rfl; revert hb; decide
    have ec : Parser.isComment (c :: w ++ b :: r) = .ok false := by
      simp only [List.cons_append, Parser.isComment, Parser.SLASH, Parser.SEMI]
      have h59 : c ≠ 59 := by rintro rfl; exact h4 rfl
      by_cases h47 : c = 47
      · subst h47
        cases w with
        | nil => simp [hb47]
        | cons d w =>
          have : d ≠ 47 := by rintro rfl; exact h5 ⟨w, rfl⟩
          simp [this]
      · simp [h47, h59]
    have h34 : c ≠ 34 := by rintro rfl; exact h3 rfl
    rw [e]
    simp only [EntData.afterSkip, ec, hf, Bool.false_eq_true, if_false]
    rw [List.cons_append] at hu ⊢
    simp [Parser.copyToken, Parser.QUOTE, h34, hu]

/-- The next word of a line. -/
theorem word {fl : Flags} (hf : fl.comment = false) {line w : Text} {ws : List Text} (h : Line line (w :: ws)) (more : Text) (l : Nat) (t : Text)
    (q : Bool) : ∃ rest, parseToken 0 fl false ⟨line ++ 10 :: more, l, t, q⟩ = .ok (true, ⟨rest ++ 10 :: more, l, w, false⟩) ∧
      Line rest ws ∧ Plain w := by
  simp only [parseToken, Bool.false_eq_true, if_false]
  cases h with
  | @word s w rest ws hs hw hr hl =>
    refine ⟨rest, ?_, hl, hw⟩
    rw [List.append_assoc, List.append_assoc,
      EntData.scan_congr (skip_blanks hs (by simp only [List.length_append, List.length_cons]; omega))]
    rcases hr with rfl | ⟨b, r, rfl, hb, -⟩
    · rw [List.nil_append, scan_word hf w hw 10 (by decide)]
    · rw [List.cons_append, scan_word hf w hw b (blank_iff.mpr hb)]

theorem comment_is {c : Text} (hc : ∃ t, c = 47 :: 47 :: t ∨ c = 59 :: t) (r : Text) :
    Parser.isComment (c ++ r) = .ok true ∧ ∀ fl l, skipSpace 0 fl (c ++ r) l = .ok (.found (c ++ r) l) := by
  obtain ⟨t, rfl | rfl⟩ := hc
  · exact ⟨by simp [Parser.isComment, Parser.SLASH], fun fl l => by simp [skipSpace, Parser.atEnd, isBlank]⟩
  · exact ⟨by simp [Parser.isComment, Parser.SLASH, Parser.SEMI], fun fl l => by simp [skipSpace, Parser.atEnd, isBlank]⟩

/-- No more word is in the line. -/
theorem noWord {line : Text} (h : Line line []) (more : Text) (l : Nat) (t : Text) (q : Bool) :
    ∃ rest, parseToken 0 optionalWord false ⟨line ++ 10 :: more, l, t, q⟩ = .ok (false, ⟨rest ++ 10 :: more, l, [], false⟩) ∧ Line rest [] := by
  simp only [parseToken, Bool.false_eq_true, if_false]
  cases h with
  | blank hs =>
    refine ⟨[], ?_, .blank (by simp [Space])⟩
    rw [EntData.scan_congr (skip_blanks hs (by simp)), EntData.scan_eq]
    simp [skipSpace, Parser.atEnd, isBlank, Parser.NL, optionalWord, EntData.afterSkip]
  | @comment s c hs hc h10 h0 =>
    refine ⟨c, ?_, .comment (s := []) (by simp [Space]) hc h10 h0⟩
    obtain ⟨e1, e2⟩ := comment_is hc (10 :: more)
    rw [List.append_assoc, EntData.scan_congr (skip_blanks hs (by simp only [List.length_append, List.length_cons]; omega)), EntData.scan_eq, e2]
    simp [EntData.afterSkip, e1, optionalWord]

theorem skipLine_nl : ∀ c : Text, 10 ∉ c → 0 ∉ c → ∀ r, Parser.skipLine (c ++ 10 :: r) = .ok (true, r) := by
  intro c
  induction c with
  | nil => intro _ _ r; unfold Parser.skipLine; simp
  | cons a c ih =>
    intro h10 h0 r
    simp only [List.mem_cons, not_or] at h10 h0
    have ih := ih h10.2 h0.2 r
    rw [List.cons_append]
    unfold Parser.skipLine
    rw [if_neg (by rw [Parser.NL]; exact Ne.symm h10.1)]
    cases c with
    | nil => simpa using ih
    | cons d c =>
      have hd : d ≠ 0 := by
        rintro rfl
        exact h0.2 (by simp)
      simpa [hd] using ih

/-- A line without words is skipped. -/
theorem skipEmpty {line : Text} (h : Line line []) (more : Text) (l : Nat) :
    ∃ n, scan 0 {} (line ++ 10 :: more) l = scan 0 {} more n := by
  have nl : ∀ l, scan 0 {} (10 :: more) l = scan 0 {} more (l + 1) := fun l => EntData.scan_newline (by simp)
  cases h with
  | blank hs => exact ⟨l + 1, by rw [EntData.scan_congr (skip_blanks hs (by simp)), nl]⟩
  | @comment s c hs hc h10 h0 =>
    refine ⟨l + 1, ?_⟩
    obtain ⟨e1, e2⟩ := comment_is hc (10 :: more)
    rw [List.append_assoc, EntData.scan_congr (skip_blanks hs (by simp only [List.length_append, List.length_cons]; omega)), EntData.scan_eq, e2]
    simp only [EntData.afterSkip, e1, skipLine_nl c h10 h0, Bool.false_eq_true, if_false]

theorem cut_plain {w : Text} (h : Plain w) : cutBlanks w.reverse = .ok w.reverse := by
  obtain ⟨h1, h2, -⟩ := h
  cases hr : w.reverse with
  | nil => exact absurd (List.reverse_eq_nil_iff.mp hr) h1
  | cons b bs =>
    have hb := (h2 b (List.mem_reverse.mp (by rw [hr]; simp))).1
    have : isSpace b = false := by
      have h32 : b ≠ 32 := by rintro rfl; exact absurd hb (by decide)
      have h13 : ¬ b ≤ 13 := by
        intro hle
        exact absurd (UInt8.lt_of_lt_of_le hb hle) (by decide)
      simp [isSpace, h32, h13]
    simp [cutBlanks, this]

/-- The rest of a line behind the new name. -/
theorem info_read {env : Numbers} {ws : List Text} {name : Text} {d : Def} (hd : Defines env ws name d) {line : Text}
    (h : Line line (ws.drop 2)) (more : Text) (l : Nat) (t : Text) (q : Bool) :
    ∃ rest t', readInfo env ⟨line ++ 10 :: more, l, t, q⟩ = .ok (d.info, ⟨rest ++ 10 :: more, l, t', false⟩) ∧ Line rest [] := by
  have hc : optionalWord.comment = false := rfl
  rcases hd with ⟨rfl, e⟩ | ⟨c, x, rfl, hx, e⟩ | ⟨c, f, x, y, rfl, hx, hy, e⟩ | ⟨c, f, v, x, y, z, rfl, hx, hy, hz, e⟩
  · obtain ⟨r, h1, h2⟩ := noWord h more l t q
    exact ⟨r, [], by simp [readInfo, h1, e], h2⟩
  · obtain ⟨r, h1, h2, -⟩ := word hc h more l t q
    obtain ⟨r2, h3, h4⟩ := noWord h2 more l c false
    obtain ⟨r3, h5, h6⟩ := noWord h4 more l [] false
    exact ⟨r3, [], by simp [readInfo, optionalInt, h1, h3, h5, e, hx], h6⟩
  · obtain ⟨r, h1, h2, -⟩ := word hc h more l t q
    obtain ⟨r2, h3, h4, -⟩ := word hc h2 more l c false
    obtain ⟨r3, h5, h6⟩ := noWord h4 more l f false
    exact ⟨r3, [], by simp [readInfo, optionalInt, h1, h3, h5, e, hx, hy], h6⟩
  · obtain ⟨r, h1, h2, -⟩ := word hc h more l t q
    obtain ⟨r2, h3, h4, -⟩ := word hc h2 more l c false
    obtain ⟨r3, h5, h6, -⟩ := word hc h4 more l f false
    exact ⟨r3, v, by simp [readInfo, optionalInt, h1, h3, h5, e, hx, hy, hz], h6⟩

/-- The table after lines. -/
inductive After (env : Numbers) : Table → List (List Text) → Table → Prop
  | nil {m} : After env m [] m
  | empty {m wss m'} : After env m wss m' → After env m ([] :: wss) m'
  | put {m ws name d wss m'} : Defines env ws name d → After env (m.put name d) wss m' → After env m (ws :: wss) m'

theorem loop_congr {env : Numbers} {n : Nat} {s s' : State} {m : Table} (h : scan 0 {} s.rest s.line = scan 0 {} s'.rest s'.line) :
    loadLoop env n s m = loadLoop env n s' m := by
  cases n with
  | zero => rfl
  | succ n => simp only [loadLoop, parseToken, Bool.false_eq_true, if_false, h]

theorem load_lines {env : Numbers} {text : Text} {wss : List (List Text)} (hf : IsFile text wss) (hv : Valid env wss) :
    ∀ (n : Nat) (l : Nat) (t : Text) (q : Bool) (m : Table), wss.length < n →
      ∃ m', loadLoop env n ⟨text, l, t, q⟩ m = .ok m' ∧ After env m wss m' := by
  induction hf with
  | nil =>
    intro n l t q m hn
    cases n with
    | zero => omega
    | succ n => exact ⟨m, by simp [loadLoop, parseToken, EntData.scan_eq, skipSpace, EntData.afterSkip], .nil⟩
  | @line line ws rest wss hl _ ih =>
    intro n l t q m hn
    have ih := ih fun ws hw => hv ws (List.mem_cons_of_mem _ hw)
    simp only [List.length_cons] at hn
    rcases hv ws (List.mem_cons_self ..) with rfl | ⟨name, d, hd⟩
    · obtain ⟨k, hk⟩ := skipEmpty hl rest l
      obtain ⟨m', h1, h2⟩ := ih n k t q m (by omega)
      exact ⟨m', by rw [loop_congr (s' := ⟨rest, k, t, q⟩) hk, h1], .empty h2⟩
    · cases n with
      | zero => omega
      | succ n =>
        have e : ∃ ws', ws = name :: d.to :: ws' := by
          rcases hd with ⟨rfl, -⟩ | ⟨c, x, rfl, -⟩ | ⟨c, f, x, y, rfl, -⟩ | ⟨c, f, v, x, y, z, rfl, -⟩ <;> exact ⟨_, rfl⟩
        obtain ⟨ws', rfl⟩ := e
        obtain ⟨r1, a1, a2, -⟩ := word (fl := {}) rfl hl rest l t q
        obtain ⟨r2, b1, b2, b3⟩ := word (fl := { sameline := true }) rfl a2 rest l name false
        obtain ⟨r3, t', c1, c2⟩ := info_read hd (by simpa using b2) rest l d.to false
        obtain ⟨k, hk⟩ := skipEmpty c2 rest l
        obtain ⟨m', h1, h2⟩ := ih n k t' false (m.put name d) (by omega)
        refine ⟨m', ?_, .put hd h2⟩
        rw [loadLoop]
        simp only [a1, Outcome.ok_bind, atEnd, List.length_append, List.length_cons, Nat.le_zero, Nat.add_eq_zero_iff, Nat.one_ne_zero,
          and_false, decide_false, Bool.true_eq_false, Bool.false_eq_true, or_self, if_false, b1, cut_plain b3, List.reverse_reverse, c1]
        rw [loop_congr (s' := ⟨rest, k, t', false⟩) hk, h1]

theorem file_length {text : Text} {wss : List (List Text)} (hf : IsFile text wss) : wss.length ≤ text.length := by
  induction hf with
  | nil => simp
  | line _ _ ih => simp only [List.length_cons, List.length_append]; omega

theorem defines_head {env : Numbers} {ws : List Text} {name : Text} {d : Def} (h : Defines env ws name d) : ws.head? = some name := by
  rcases h with ⟨rfl, -⟩ | ⟨c, x, rfl, -⟩ | ⟨c, f, x, y, rfl, -⟩ | ⟨c, f, v, x, y, z, rfl, -⟩ <;> rfl

theorem defines_unique {env : Numbers} {ws : List Text} {name name' : Text} {d d' : Def} (h : Defines env ws name d)
    (h' : Defines env ws name' d') : d = d' := by
  obtain ⟨a, info⟩ := d
  obtain ⟨a', info'⟩ := d'
  simp only [Defines] at h h'
  rcases h with ⟨rfl, e⟩ | ⟨c, x, rfl, hx, e⟩ | ⟨c, f, x, y, rfl, hx, hy, e⟩ | ⟨c, f, v, x, y, z, rfl, hx, hy, hz, e⟩ <;>
  rcases h' with ⟨g, e'⟩ | ⟨c', x', g, hx', e'⟩ | ⟨c', f', x', y', g, hx', hy', e'⟩ | ⟨c', f', v', x', y', z', g, hx', hy', hz', e'⟩ <;>
  simp_all

theorem after_spec {env : Numbers} {m m' : Table} {wss : List (List Text)} (h : After env m wss m') (k : Text) (d : Def) :
    m' k = some d ↔ LastFor env wss k d ∨ m k = some d ∧ ∀ ws ∈ wss, ws.head? ≠ some k := by
  induction h with
  | nil => simp [LastFor]
  | @empty m wss m' _ ih =>
    rw [ih]
    constructor
    · rintro (⟨b, ws, a, rfl, h⟩ | ⟨h1, h2⟩)
      · exact .inl ⟨[] :: b, ws, a, rfl, h⟩
      · exact .inr ⟨h1, by simpa using h2⟩
    · rintro (⟨b, ws, a, e, h, h'⟩ | ⟨h1, h2⟩)
      · cases b with
        | nil =>
          simp only [List.nil_append, List.cons.injEq] at e
          obtain ⟨rfl, -⟩ := e
          have := defines_head h
          simp at this
        | cons x b =>
          simp only [List.cons_append, List.cons.injEq] at e
          exact .inl ⟨b, ws, a, e.2, h, h'⟩
      · exact .inr ⟨h1, fun ws hw => h2 ws (List.mem_cons_of_mem _ hw)⟩
  | @put m ws name d0 wss m' hd _ ih =>
    rw [ih]
    constructor
    · rintro (⟨b, ws', a, rfl, h⟩ | ⟨h1, h2⟩)
      · exact .inl ⟨ws :: b, ws', a, rfl, h⟩
      · unfold Table.put at h1
        split at h1
        · rename_i hk
          subst hk
          simp only [Option.some.injEq] at h1
          subst h1
          exact .inl ⟨[], ws, wss, rfl, hd, h2⟩
        · rename_i hk
          refine .inr ⟨h1, fun ws' hw => ?_⟩
          rcases List.mem_cons.mp hw with rfl | hw
          · rw [defines_head hd]; simpa using Ne.symm hk
          · exact h2 ws' hw
    · rintro (⟨b, ws', a, e, h, h'⟩ | ⟨h1, h2⟩)
      · cases b with
        | nil =>
          simp only [List.nil_append, List.cons.injEq] at e
          obtain ⟨rfl, rfl⟩ := e
          have hk : k = name := by
            have := defines_head h
            rw [defines_head hd] at this
            simpa using this.symm
          subst hk
          exact .inr ⟨by rw [Table.put, if_pos rfl, defines_unique hd h], h'⟩
        | cons x b =>
          simp only [List.cons_append, List.cons.injEq] at e
          exact .inl ⟨b, ws', a, e.2, h, h'⟩
      · have hk : k ≠ name := by
          rintro rfl
          exact h2 ws (List.mem_cons_self ..) (defines_head hd)
        exact .inr ⟨by rw [Table.put, if_neg hk, h1], fun ws' hw => h2 ws' (List.mem_cons_of_mem _ hw)⟩

theorem after_append {env : Numbers} {m m1 m2 : Table} {a b : List (List Text)} (h : After env m a m1) (h' : After env m1 b m2) :
    After env m (a ++ b) m2 := by
  induction h with
  | nil => exact h'
  | empty _ ih => exact .empty (ih h')
  | put hd _ ih => exact .put hd (ih h')

theorem lastFor_flatten (env : Numbers) (files : List (Text × List (List Text)))
    (hd : files.Pairwise fun f g => ∀ x ∈ f.2, ∀ y ∈ g.2, ∀ k, ¬ (x.head? = some k ∧ y.head? = some k)) (k : Text) (d : Def) :
    LastFor env (files.flatMap fun f => f.2) k d ↔ ∃ f ∈ files, LastFor env f.2 k d := by
  induction files with
  | nil => simp [LastFor]
  | cons f fs ih =>
    rw [List.pairwise_cons] at hd
    rw [List.flatMap_cons]
    constructor
    · rintro ⟨b, ws, a, e, h1, h2⟩
      rcases List.append_eq_append_iff.mp e with ⟨c, e1, e2⟩ | ⟨c, e1, e2⟩
      · obtain ⟨g, hg, h⟩ := (ih hd.2).mp ⟨c, ws, a, e2, h1, h2⟩
        exact ⟨g, List.mem_cons_of_mem _ hg, h⟩
      · cases c with
        | nil =>
          obtain ⟨g, hg, h⟩ := (ih hd.2).mp ⟨[], ws, a, by simpa using e2.symm, h1, h2⟩
          exact ⟨g, List.mem_cons_of_mem _ hg, h⟩
        | cons x c =>
          simp only [List.cons_append, List.cons.injEq] at e2
          obtain ⟨rfl, rfl⟩ := e2
          exact ⟨f, List.mem_cons_self .., b, ws, c, e1, h1, fun w hw => h2 w (List.mem_append_left _ hw)⟩
    · rintro ⟨g, hg, h⟩
      rcases List.mem_cons.mp hg with rfl | hg
      · obtain ⟨b, ws, a, e, h1, h2⟩ := h
        refine ⟨b, ws, a ++ fs.flatMap fun f => f.2, by simp [e], h1, fun w hw => ?_⟩
        rcases List.mem_append.mp hw with hw | hw
        · exact h2 w hw
        · obtain ⟨g', hg', hw⟩ := List.mem_flatMap.mp hw
          intro hk
          exact hd.1 g' hg' ws (by simp [e]) w hw k ⟨defines_head h1, hk⟩
      · obtain ⟨b, ws, a, e, h1, h2⟩ := (ih hd.2).mpr ⟨g, hg, h⟩
        exact ⟨f.2 ++ b, ws, a, by simp [e], h1, h2⟩

end Verif.TexRemap
