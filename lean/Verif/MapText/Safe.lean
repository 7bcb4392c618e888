import Verif.MapText.Spec
import Verif.Parser.Props

/-! Helper lemmas: reading a map stays within the file. -/

namespace Verif.MapText

open Verif.Parser (State parseToken Flags scan)
open Verif.EntData (Str Dict)
open Spec

variable {N : Type}

/-- The outcome is not undefined, and a value is as wanted. -/
def Sat {α : Type} (o : Outcome α) (Q : α → Prop) : Prop :=
  match o with
  | .ok x => Q x
  | .error => True
  | .ub => False

theorem Sat.bind {α β : Type} {o : Outcome α} {g : α → Outcome β} {Q : α → Prop} {R : β → Prop} (h : Sat o Q)
    (hg : ∀ x, Q x → Sat (g x) R) : Sat (o >>= g) R := by
  cases o with
  | ok x => simpa using hg x h
  | error => trivial
  | ub => exact h.elim

theorem Sat.mono {α : Type} {o : Outcome α} {Q R : α → Prop} (h : Sat o Q) (hg : ∀ x, Q x → R x) : Sat o R := by
  cases o with
  | ok x => exact hg x h
  | error => trivial
  | ub => exact h.elim

theorem sat_of_ne {α : Type} {o : Outcome α} (h : o ≠ .ub) : Sat o fun _ => True := by
  cases o with
  | ok x => trivial
  | error => trivial
  | ub => exact (h rfl).elim

theorem blank_false {c : UInt8} (h : 32 < c ∧ c < 128) : Parser.isBlank c = false := by
  simp only [Parser.isBlank, Bool.or_eq_false_iff, decide_eq_false_iff_not, UInt8.not_le]
  exact h

theorem skipSpace_at (fl : Flags) {c : UInt8} (h : 32 < c ∧ c < 128) (t : Str) (l : Nat) :
    Parser.skipSpace 0 fl (c :: t) l = .ok (.found (c :: t) l) := by
  simp [Parser.skipSpace, Parser.atEnd, blank_false h]

theorem copyComment_at {c : Str} (h10 : 10 ∉ c) (h0 : 0 ∉ c) (t : Str) : Parser.copyComment (c ++ 10 :: t) = .ok (c, 10 :: t) := by
  induction c with
  | nil => simp [Parser.copyComment, Parser.NL]
  | cons a c ih =>
    simp at h10 h0
    have e := ih h10.2 h0.2
    have h1 : a ≠ 0 := fun e => h0.1 e.symm
    have h2 : a ≠ 10 := fun e => h10.1 e.symm
    simp [Parser.copyComment, Parser.NL, h1, h2, e]

theorem skipLine_at {c : Str} (h10 : 10 ∉ c) (h0 : 0 ∉ c) (t : Str) : Parser.skipLine (c ++ 10 :: t) = .ok (true, t) := by
  induction c with
  | nil => rw [List.nil_append, Parser.skipLine.eq_def]; simp [Parser.NL]
  | cons a c ih =>
    simp at h10 h0
    have e := ih h10.2 h0.2
    have h2 : a ≠ 10 := fun e => h10.1 e.symm
    cases c with
    | nil =>
      rw [List.nil_append] at e
      rw [List.cons_append, List.nil_append, Parser.skipLine.eq_def]
      simpa [Parser.NL, h2] using e
    | cons b c =>
      have h1 : b ≠ 0 := fun e => h0.2 (by simp [e])
      rw [List.cons_append, Parser.skipLine.eq_def]
      simp only [List.cons_append, Parser.NL, h2, if_false, h1]
      exact e

/-- Reading a token in such a text. -/
theorem scan_lex {t : Str} (h : Lex t) : ∀ (fl : Flags) (l : Nat), Sat (scan 0 fl t l) fun r => Lex r.2.rest := by
  induction h with
  | nil =>
    intro fl l
    rw [EntData.scan_eq]
    by_cases h1 : fl.optional = true <;> by_cases h2 : fl.sameline = true <;>
      simp [Parser.skipSpace, h1, h2, EntData.afterSkip, Sat, Lex.nil]
  | @blank b t hb ht ih =>
    intro fl l
    have hb' : Parser.isBlank b = true := by rw [Parser.isBlank_iff]; exact hb
    have here : Lex (b :: t) := .blank hb ht
    rw [EntData.scan_eq]
    simp only [Parser.skipSpace, hb', Bool.or_true, if_true, Parser.atEnd, List.length_cons, Nat.le_zero_eq, Nat.add_one_ne_zero,
      decide_false, Bool.false_or, Parser.NL]
    by_cases h0 : b = 0
    · by_cases h1 : fl.optional = true <;> by_cases h2 : fl.sameline = true <;> simp [h0, h1, h2, EntData.afterSkip, Sat] <;>
        (rw [← h0]; exact here)
    · by_cases h10 : b = 10
      · by_cases h1 : fl.optional = true
        · simp [h10, h1, EntData.afterSkip, Sat]
          rw [← h10]; exact here
        · by_cases h2 : fl.sameline = true
          · simp [h10, h1, h2, EntData.afterSkip, Sat]
          · have := ih fl (l + 1)
            rw [EntData.scan_eq] at this
            simpa [h10, h1, h2] using this
      · have := ih fl l
        rw [EntData.scan_eq] at this
        simpa [h0, h10] using this
  | @comment c t hc h10 h0 ht ih =>
    intro fl l
    have here : Lex (c ++ 10 :: t) := .comment hc h10 h0 ht
    obtain ⟨a, c', e, ha, hcom⟩ : ∃ a c', c = a :: c' ∧ (32 < a ∧ a < 128) ∧ ∀ x, Parser.isComment (c ++ 10 :: x) = .ok true := by
      obtain ⟨u, rfl | rfl⟩ := hc
      · exact ⟨47, _, rfl, by decide, fun x => by simp [Parser.isComment, Parser.SLASH]⟩
      · exact ⟨59, _, rfl, by decide, fun x => by simp [Parser.isComment, Parser.SLASH, Parser.SEMI]⟩
    have hs : Parser.skipSpace 0 fl (c ++ 10 :: t) l = .ok (.found (c ++ 10 :: t) l) := by
      subst e
      exact skipSpace_at fl ha _ l
    rw [EntData.scan_eq, hs]
    simp only [EntData.afterSkip, hcom, copyComment_at h10 h0, skipLine_at h10 h0]
    by_cases h1 : fl.comment = true
    · simp [h1, Sat]
      exact .blank (by decide) ht
    · by_cases h2 : fl.optional = true
      · simp [h1, h2, Sat]
        exact here
      · by_cases h3 : fl.sameline = true
        · simp [h1, h2, h3, Sat]
        · simp only [h1, h2, h3]
          exact ih fl (l + 1)
  | @word w b t hw h1 h2 h3 h4 hb ht _ =>
    intro fl l
    have here : Lex (w ++ b :: t) := .word hw h1 h2 h3 h4 hb ht
    have hb' : Parser.isBlank b = true := by rw [Parser.isBlank_iff]; exact hb
    cases w with
    | nil => exact absurd rfl hw
    | cons c w =>
      have hc := h1 c (by simp)
      have hb47 : b ≠ 47 := by rintro rfl; revert hb; decide
      have ec : Parser.isComment (c :: w ++ b :: t) = .ok false := by
        simp only [List.cons_append, Parser.isComment, Parser.SLASH, Parser.SEMI]
        have h59 : c ≠ 59 := by rintro rfl; exact h3 rfl
        by_cases h47 : c = 47
        · subst h47
          cases w with
          | nil => simp [hb47]
          | cons d w =>
            have : d ≠ 47 := by rintro rfl; exact h4 ⟨w, rfl⟩
            simp [this]
        · simp [h47, h59]
      have h34 : c ≠ 34 := by rintro rfl; exact h2 rfl
      have hu : ∀ u : Str, (∀ c ∈ u, 32 < c ∧ c < 128) → Parser.unquoted (u ++ b :: t) = .ok (u, b :: t) := by
        intro u
        induction u with
        | nil => intro _; simp [Parser.unquoted, hb']
        | cons x u ihu =>
          intro hx
          simp [Parser.unquoted, blank_false (hx x (by simp)), ihu (fun y hy => hx y (by simp [hy]))]
      have hu := hu (c :: w) h1
      rw [EntData.scan_eq, List.cons_append, skipSpace_at fl hc]
      rw [List.cons_append] at ec hu here
      simp only [EntData.afterSkip, ec]
      by_cases hf : fl.comment = true
      · simp [hf, Sat]
        exact here
      · simp [hf, Parser.copyToken, Parser.QUOTE, h34, hu, Sat]
        exact ht
  | @quoted s tok t hq ht _ =>
    intro fl l
    have here : Lex (34 :: s) := .quoted hq ht
    rw [EntData.scan_eq, skipSpace_at fl (by decide)]
    have ec : Parser.isComment (34 :: s) = .ok false := by simp [Parser.isComment, Parser.SLASH, Parser.SEMI]
    simp only [EntData.afterSkip, ec]
    by_cases hf : fl.comment = true
    · simp [hf, Sat]
      exact here
    · simp [hf, Parser.copyToken, hq, Sat]
      exact ht

/-- The parser has gone on, and what is left is such a text. -/
def Fwd (p s : State) : Prop := Lex s.rest ∧ s.rest.length ≤ p.rest.length

theorem Fwd.trans {p q r : State} (h : Fwd p q) (h2 : Fwd q r) : Fwd p r := ⟨h2.1, Nat.le_trans h2.2 h.2⟩

theorem scan_le {fl : Flags} {t : Str} {l : Nat} {b : Bool} {s : State} (h : scan 0 fl t l = .ok (b, s)) : s.rest.length ≤ t.length := by
  cases b with
  | true => exact Nat.le_of_lt (Parser.scan_progress h)
  | false =>
    obtain ⟨-, -, j, c, -, -, e, -⟩ := Parser.scan_spec h
    rw [e]
    simp
    omega

theorem token_fwd (fl : Flags) (peek : Bool) (p : State) (h : Lex p.rest) :
    Sat (parseToken 0 fl peek p) fun r => Fwd p r.2 ∧ (r.1 = true → peek = false → r.2.rest.length < p.rest.length) := by
  have h1 := scan_lex h fl p.line
  cases hs : scan 0 fl p.rest p.line with
  | error => cases peek <;> simp [parseToken, hs, Sat]
  | ub => rw [hs] at h1; exact h1.elim
  | ok r =>
    obtain ⟨b, s⟩ := r
    rw [hs] at h1
    have h2 := scan_le hs
    cases peek with
    | true => simp [parseToken, hs, Sat, Fwd, h]
    | false =>
      simp only [parseToken, hs, Sat, Bool.false_eq_true, if_false]
      refine ⟨⟨h1, h2⟩, ?_⟩
      intro hb _
      subst hb
      exact Parser.scan_progress hs

theorem word_fwd (p : State) (h : Lex p.rest) : Sat (word p) fun s => Fwd p s :=
  (token_fwd _ _ p h).bind fun _ hr => hr.1

variable {env : Env N}

theorem num_fwd (hr : ∀ t, env.read t ≠ .ub) (p : State) (h : Lex p.rest) : Sat (num env p) fun r => Fwd p r.2 :=
  (word_fwd p h).bind fun s hs => (sat_of_ne (hr s.token)).bind fun _ _ => hs

theorem expect_fwd (c : UInt8) (p : State) (h : Lex p.rest) : Sat (expect c p) fun s => Fwd p s :=
  (word_fwd p h).bind fun s hs => by
    split
    · exact hs
    · trivial

theorem three_fwd (hr : ∀ t, env.read t ≠ .ub) (p : State) (h : Lex p.rest) : Sat (three env p) fun r => Fwd p r.2 :=
  (num_fwd hr p h).bind fun _ h1 => (num_fwd hr _ h1.1).bind fun _ h2 => (num_fwd hr _ h2.1).bind fun _ h3 =>
    (h1.trans h2).trans h3

theorem point_fwd (hr : ∀ t, env.read t ≠ .ub) (p : State) (h : Lex p.rest) : Sat (point env p) fun r => Fwd p r.2 := by
  unfold point
  split
  · trivial
  · exact (three_fwd hr p h).bind fun _ h1 => (expect_fwd _ _ h1.1).bind fun _ h2 => h1.trans h2

theorem planeDef_fwd (hr : ∀ t, env.read t ≠ .ub) (p : State) (h : Lex p.rest) : Sat (planeDef env p) fun r => Fwd p r.2 :=
  (point_fwd hr p h).bind fun _ h1 => (token_fwd _ _ _ h1.1).bind fun _ h2 => (point_fwd hr _ h2.1.1).bind fun _ h3 =>
    (token_fwd _ _ _ h3.1).bind fun _ h4 => (point_fwd hr _ h4.1.1).bind fun _ h5 =>
      (((h1.trans h2.1).trans h3).trans h4.1).trans h5

theorem axis_fwd (hr : ∀ t, env.read t ≠ .ub) (p : State) (h : Lex p.rest) : Sat (axis env p) fun r => Fwd p r.2 :=
  (expect_fwd _ p h).bind fun _ h1 => (three_fwd hr _ h1.1).bind fun _ h2 => (num_fwd hr _ h2.1).bind fun _ h3 =>
    (expect_fwd _ _ h3.1).bind fun _ h4 => ((h1.trans h2).trans h3).trans h4

theorem valve_fwd (hr : ∀ t, env.read t ≠ .ub) (p : State) (h : Lex p.rest) : Sat (valveTX env p) fun r => Fwd p r.2 :=
  (axis_fwd hr p h).bind fun _ h1 => (axis_fwd hr _ h1.1).bind fun _ h2 => (num_fwd hr _ h2.1).bind fun _ h3 =>
    (num_fwd hr _ h3.1).bind fun _ h4 => (num_fwd hr _ h4.1).bind fun _ h5 => (((h1.trans h2).trans h3).trans h4).trans h5

theorem row_fwd (hr : ∀ t, env.read t ≠ .ub) (p : State) (h : Lex p.rest) : Sat (row env p) fun r => Fwd p r.2 :=
  (expect_fwd _ p h).bind fun _ h1 => (three_fwd hr _ h1.1).bind fun _ h2 => (expect_fwd _ _ h2.1).bind fun _ h3 =>
    (h1.trans h2).trans h3

theorem prim_fwd (hr : ∀ t, env.read t ≠ .ub) (p : State) (h : Lex p.rest) : Sat (primTX env p) fun r => Fwd p r.2 :=
  (expect_fwd _ p h).bind fun _ h1 => (row_fwd hr _ h1.1).bind fun _ h2 => (row_fwd hr _ h2.1).bind fun _ h3 =>
    (expect_fwd _ _ h3.1).bind fun _ h4 => ((h1.trans h2).trans h3).trans h4

theorem extended_fwd (hr : Reads env) (p : State) (h : Lex p.rest) : Sat (extendedTX env p) fun r => Fwd p r.2 := by
  refine (token_fwd _ _ p h).bind fun c hc => ?_
  split
  · exact hc.1
  · refine (token_fwd _ _ _ hc.1.1).bind fun a ha => ?_
    have h1 := hc.1.trans ha.1
    split
    · refine (sat_of_ne (hr.readU _)).bind fun _ _ => (token_fwd _ _ _ h1.1).bind fun b hb => ?_
      have h2 := h1.trans hb.1
      refine Sat.bind (Q := fun _ => True) ?_ fun _ _ => (token_fwd _ _ _ h2.1).bind fun d hd => ?_
      · split
        · exact sat_of_ne (hr.readI _)
        · trivial
      · refine Sat.bind (Q := fun _ => True) ?_ fun _ _ => h2.trans hd.1
        split
        · exact sat_of_ne (hr.readI _)
        · trivial
    · exact h1

theorem textureDef_fwd (hr : Reads env) (bp : Bool) (p : State) (h : Lex p.rest) : Sat (textureDef env bp p) fun r => Fwd p r.2 := by
  unfold textureDef
  split
  · exact (prim_fwd hr.read p h).bind fun _ h1 => (word_fwd _ h1.1).bind fun _ h2 => (extended_fwd hr _ h2.1).bind fun _ h3 =>
      (h1.trans h2).trans h3
  · refine (word_fwd p h).bind fun _ h1 => (token_fwd _ _ _ h1.1).bind fun k h2 => ?_
    have h2 := h1.trans h2.1
    split
    · exact (valve_fwd hr.read _ h2.1).bind fun _ h3 => (extended_fwd hr _ h3.1).bind fun _ h4 => (h2.trans h3).trans h4
    · exact (num_fwd hr.read _ h2.1).bind fun _ h3 => (num_fwd hr.read _ h3.1).bind fun _ h4 => (num_fwd hr.read _ h4.1).bind fun _ h5 =>
        (num_fwd hr.read _ h5.1).bind fun _ h6 => (num_fwd hr.read _ h6.1).bind fun _ h7 => (extended_fwd hr _ h7.1).bind fun _ h8 =>
          (((((h2.trans h3).trans h4).trans h5).trans h6).trans h7).trans h8

theorem face_fwd (hr : Reads env) (bp : Bool) (p : State) (h : Lex p.rest) : Sat (parseFace env bp p) fun r => Fwd p r.2 :=
  (planeDef_fwd hr.read p h).bind fun _ h1 => (textureDef_fwd hr bp _ h1.1).bind fun _ h2 => h1.trans h2

theorem faces_fwd (hr : Reads env) (bp : Bool) : ∀ (k : Nat) (acc : List (Face N)) (p : State) (_ : Lex p.rest) (_ : p.rest.length < k),
    Sat (parseFaces env bp k acc p) fun r => Fwd p r.2 := by
  intro k
  induction k with
  | zero => intro acc p _ hk; exact absurd hk (by omega)
  | succ k ih =>
    intro acc p h hk
    refine (token_fwd _ _ p h).bind fun r hr1 => ?_
    split
    · exact hr1.1
    · rename_i hn
      have hlt := hr1.2 (by cases hb : r.1 <;> simp_all) rfl
      exact (face_fwd hr bp _ hr1.1.1).bind fun f hf => (ih _ _ hf.1 (by have := hf.2; omega)).mono fun _ h2 =>
        (hr1.1.trans hf).trans h2

theorem start_fwd (p : State) (h : Lex p.rest) : Sat (parseStart p) fun r => Fwd p r.2 := by
  refine (token_fwd _ _ p h).bind fun k hk => ?_
  split
  · trivial
  · split
    · exact hk.1
    · refine (token_fwd _ _ _ hk.1.1).bind fun a ha => ?_
      have h1 := hk.1.trans ha.1
      split
      · refine (token_fwd _ _ _ h1.1).bind fun b hb => ?_
        split
        · trivial
        · exact h1.trans hb.1
      · split
        · trivial
        · exact h1

theorem end_fwd (bp : Bool) (p : State) (h : Lex p.rest) : Sat (parseEnd bp p) fun s => Fwd p s := by
  unfold parseEnd
  split
  · refine (token_fwd _ _ p h).bind fun r hr => ?_
    split
    · trivial
    · exact hr.1
  · exact ⟨h, Nat.le_refl _⟩

theorem brush_fwd (hr : Reads env) (world region : Bool) (p : State) (h : Lex p.rest) :
    Sat (parseBrush env world region p) fun r => Fwd p r.2 := by
  refine (start_fwd p h).bind fun st h1 => (faces_fwd hr _ _ _ _ h1.1 (Nat.lt_succ_self _)).bind fun fs h2 => ?_
  have h3 := h1.trans h2
  split
  · trivial
  · split
    · split
      · trivial
      · exact h3
    · exact (end_fwd _ _ h3.1).bind fun _ h4 => h3.trans h4

theorem skip_fwd : ∀ (k : Nat) (p : State) (_ : Lex p.rest) (_ : p.rest.length < k), Sat (skipBrush k p) fun s => Fwd p s := by
  intro k
  induction k with
  | zero => intro p _ hk; exact absurd hk (by omega)
  | succ k ih =>
    intro p h hk
    refine (token_fwd _ _ p h).bind fun r hr => ?_
    split
    · trivial
    · rename_i hn
      have hlt := hr.2 (by cases hb : r.1 <;> simp_all) rfl
      split
      · exact hr.1
      · exact (ih _ hr.1.1 (by omega)).mono fun _ h2 => hr.1.trans h2

theorem epair_fwd (hkey : ∀ k, env.key k ≠ .ub) (d : Dict) (p : State) (h : Lex p.rest) : Sat (parseEpair env d p) fun r => Fwd p r.2 :=
  (sat_of_ne (hkey _)).bind fun _ _ => (word_fwd p h).bind fun _ h1 => h1

theorem body_fwd (hr : Reads env) (hkey : ∀ k, env.key k ≠ .ub) (world : Bool) : ∀ (k : Nat) (region : Bool) (om : Option Bool) (e : Ent N) (p : State)
    (_ : Lex p.rest) (_ : p.rest.length < k), Sat (parseBody env world k region om e p) fun r => Fwd p r.2 := by
  intro k
  induction k with
  | zero => intro _ _ _ p _ hk; exact absurd hk (by omega)
  | succ k ih =>
    intro region om e p h hk
    refine (token_fwd _ _ p h).bind fun r hr1 => ?_
    split
    · trivial
    · rename_i hn
      have hlt := hr1.2 (by cases hb : r.1 <;> simp_all) rfl
      split
      · exact hr1.1
      · split
        · simp only
          split
          · exact (skip_fwd _ _ hr1.1.1 (Nat.lt_succ_self _)).bind fun s hs => (ih _ _ _ _ hs.1 (by have := hs.2; omega)).mono fun _ h2 =>
              (hr1.1.trans hs).trans h2
          · exact (brush_fwd hr _ _ _ hr1.1.1).bind fun b hb => (ih _ _ _ _ hb.1 (by have := hb.2; omega)).mono fun _ h2 =>
              (hr1.1.trans hb).trans h2
        · exact (epair_fwd hkey _ _ hr1.1.1).bind fun d hd => (ih _ _ _ _ hd.1 (by have := hd.2; omega)).mono fun _ h2 =>
            (hr1.1.trans hd).trans h2

theorem entity_fwd (hr : Reads env) (hkey : ∀ k, env.key k ≠ .ub) (world region : Bool) (p : State) (h : Lex p.rest) :
    Sat (parseEntity env world region p) fun r => Fwd p r.2 ∧ (r.1 ≠ none → r.2.rest.length < p.rest.length) := by
  refine (token_fwd _ _ p h).bind fun r hr1 => ?_
  split
  · exact ⟨hr1.1, fun h => absurd rfl h⟩
  · rename_i hn
    have hlt := hr1.2 (by cases hb : r.1 <;> simp_all) rfl
    split
    · trivial
    · exact (body_fwd hr hkey world _ _ _ _ _ hr1.1.1 (Nat.lt_succ_self _)).bind fun e he =>
        ⟨hr1.1.trans he, fun _ => Nat.lt_of_le_of_lt he.2 hlt⟩

theorem ents_fwd (hr : Reads env) (hkey : ∀ k, env.key k ≠ .ub) : ∀ (k : Nat) (region : Bool) (acc : List (Ent N)) (p : State) (_ : Lex p.rest)
    (_ : p.rest.length < k), Sat (parseEnts env k region acc p) fun _ => True := by
  intro k
  induction k with
  | zero => intro _ _ p _ hk; exact absurd hk (by omega)
  | succ k ih =>
    intro region acc p h hk
    refine (entity_fwd hr hkey _ _ p h).bind fun r hr1 => ?_
    obtain ⟨o, s⟩ := r
    cases o with
    | none => trivial
    | some e => exact ih _ _ _ hr1.1.1 (by have := hr1.2 (by simp); simp only at this ⊢; omega)

end Verif.MapText
