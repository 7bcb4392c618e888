import Verif.SurfLights.RadSpec
import Verif.EntData.Lemmas
import Verif.EntData.DictProps

namespace Verif.SurfLights

open Verif.Parser (State parseToken ofString scan skipSpace isBlank)
open Verif.EntData (Str Dict)
open Spec

theorem blank_iff {b : UInt8} : isBlank b = true ↔ b ≤ 32 ∨ 128 ≤ b := by simp [isBlank]

theorem skip_space {s r : Str} {l : Nat} (hs : Space s) (hr : 1 ≤ r.length) :
    skipSpace 1 {} (s ++ r) l = skipSpace 1 {} r l := by
  induction s with
  | nil => rfl
  | cons b s ih =>
    have hb := hs b (by simp)
    have ih := ih fun c hc => hs c (by simp [hc])
    have hlen : ¬ (s ++ r).length + 1 ≤ 1 := by rw [List.length_append]; omega
    rw [List.cons_append, skipSpace]
    simp only [Parser.atEnd, List.length_cons, decide_eq_true_eq, Bool.or_eq_true, decide_eq_true_eq, hlen, false_or,
      blank_iff.mpr hb.1, if_true, hb.2.1, Parser.NL, hb.2.2, if_false, ih]

theorem scan_end (l : Nat) : scan 1 {} [0] l = .ok (false, ⟨[0], l, [], false⟩) := by
  rw [EntData.scan_eq]
  simp [skipSpace, Parser.atEnd, EntData.afterSkip]

theorem unquoted_plain (b : UInt8) (hb : isBlank b = true) (r : Str) :
    ∀ w : Str, (∀ c ∈ w, 32 < c ∧ c < 128) → Parser.unquoted (w ++ b :: r) = .ok (w, b :: r) := by
  intro w
  induction w with
  | nil => intro _; simp [Parser.unquoted, hb]
  | cons c w ih =>
    intro h
    have hc := h c (by simp)
    have : isBlank c = false := by
      simp only [isBlank, Bool.or_eq_false_iff, decide_eq_false_iff_not, UInt8.not_le]
      exact hc
    simp [Parser.unquoted, this, ih (fun d hd => h d (by simp [hd]))]

theorem scan_plain (w : Str) (hw : Plain w) (b : UInt8) (hb : isBlank b = true) (r : Str) (l : Nat) :
    scan 1 {} (w ++ b :: r) l = .ok (true, ⟨b :: r, l, w, false⟩) := by
  obtain ⟨h1, h2, h3, h4, h5⟩ := hw
  rw [EntData.scan_eq]
  have hu := unquoted_plain b hb r w h2
  cases w with
  | nil => exact absurd rfl h1
  | cons c w =>
    have hc := h2 c (by simp)
    have hcb : isBlank c = false := by
      simp only [isBlank, Bool.or_eq_false_iff, decide_eq_false_iff_not, UInt8.not_le]
      exact hc
    have e : skipSpace 1 {} (c :: w ++ b :: r) l = .ok (.found (c :: w ++ b :: r) l) := by
      simp [skipSpace, Parser.atEnd, hcb]
    have hb47 : b ≠ 47 := by rintro rfl; revert hb; decide
    have ec : Parser.isComment (c :: w ++ b :: r) = .ok false := by
      simp only [List.cons_append, Parser.isComment, Parser.SLASH, Parser.SEMI]
      have h59 : c ≠ 59 := by rintro rfl; exact h4 rfl
      by_cases h47 : c = 47
      · subst h47
        cases w with
        | nil => simp [hb47]
        | cons d w =>
          have : d ≠ 47 := by rintro rfl; exact h5 ⟨w, rfl⟩
          simp [this]
      · simp [h47, h59]
    have h34 : c ≠ 34 := by rintro rfl; exact h3 rfl
    rw [e]
    simp only [EntData.afterSkip, ec]
    rw [List.cons_append] at hu ⊢
    simp [Parser.copyToken, Parser.QUOTE, h34, hu]

theorem skipLine_nul : ∀ c : Str, c ≠ [] → 10 ∉ c → 0 ∉ c → Parser.skipLine (c ++ [0]) = .ok (false, [0]) := by
  intro c
  induction c with
  | nil => intro h; exact absurd rfl h
  | cons a c ih =>
    intro _ h10 h0
    simp only [List.mem_cons, not_or] at h10 h0
    rw [List.cons_append]
    unfold Parser.skipLine
    rw [if_neg (by rw [Parser.NL]; exact Ne.symm h10.1)]
    cases c with
    | nil => simp
    | cons d c =>
      have hd : d ≠ 0 := by
        rintro rfl
        exact h0.2 (by simp)
      have := ih (by simp) h10.2 h0.2
      simpa [hd] using this

theorem scan_rem (c : Str) (hc : ∃ t, c = 47 :: 47 :: t ∨ c = 59 :: t) (h10 : 10 ∉ c) (h0 : 0 ∉ c) (l : Nat) :
    scan 1 {} (c ++ [0]) l = .ok (false, ⟨[0], l, [], false⟩) := by
  rw [EntData.scan_eq]
  have hne : c ≠ [] := by rintro rfl; obtain ⟨t, h | h⟩ := hc <;> simp at h
  have hk := skipLine_nul c hne h10 h0
  obtain ⟨t, rfl | rfl⟩ := hc
  · have e : skipSpace 1 {} (47 :: 47 :: t ++ [0]) l = .ok (.found (47 :: 47 :: t ++ [0]) l) := by
      simp [skipSpace, Parser.atEnd, isBlank]
    have ec : Parser.isComment (47 :: 47 :: t ++ [0]) = .ok true := by simp [Parser.isComment, Parser.SLASH]
    rw [e]
    simp only [EntData.afterSkip, ec, hk, Bool.false_eq_true, if_false]
  · have e : skipSpace 1 {} (59 :: t ++ [0]) l = .ok (.found (59 :: t ++ [0]) l) := by
      simp [skipSpace, Parser.atEnd, isBlank]
    have ec : Parser.isComment (59 :: t ++ [0]) = .ok true := by simp [Parser.isComment, Parser.SLASH, Parser.SEMI]
    rw [e]
    simp only [EntData.afterSkip, ec, hk, Bool.false_eq_true, if_false]

/-- The next token of a line is its next word, or none. -/
theorem next {line : Str} {ws : List Str} (h : Line line ws) (l : Nat) (t : Str) (q : Bool) :
    ∃ rest, parseToken 1 {} false ⟨line ++ [0], l, t, q⟩ = .ok (!ws.isEmpty, ⟨rest ++ [0], l, ws.headD [], false⟩) ∧
      Line rest ws.tail := by
  simp only [parseToken, Bool.false_eq_true, if_false]
  cases h with
  | blank hs =>
    refine ⟨[], ?_, .blank (by simp [Space])⟩
    rw [EntData.scan_congr (skip_space hs (by simp)), scan_end]
    rfl
  | comment hs hc h10 h0 =>
    refine ⟨[], ?_, .blank (by simp [Space])⟩
    rw [List.append_assoc, EntData.scan_congr (skip_space hs (by simp)), scan_rem _ hc h10 h0]
    rfl
  | @word s w rest ws hs hw hr hl =>
    refine ⟨rest, ?_, hl⟩
    rw [List.append_assoc, List.append_assoc, EntData.scan_congr (skip_space hs (by simp only [List.length_append, List.length_singleton]; omega))]
    rcases hr with rfl | ⟨b, r, rfl, hb, -⟩
    · rw [List.nil_append, scan_plain w hw 0 (by decide)]
      rfl
    · rw [List.cons_append, scan_plain w hw b (blank_iff.mpr hb)]
      rfl

variable {F : Type}

theorem number_eq (env : Numbers F) {line : Str} {ws : List Str} (h : Line line ws) (l : Nat) (t : Str) (q : Bool) :
    ∃ rest, Line rest ws.tail ∧ number env ⟨line ++ [0], l, t, q⟩ =
      match env.stod (ws.headD []) with
      | none => .error
      | some x => .ok (x, ⟨rest ++ [0], l, ws.headD [], false⟩) := by
  obtain ⟨rest, h1, h2⟩ := next h l t q
  refine ⟨rest, h2, ?_⟩
  simp only [number, h1, Outcome.ok_bind]
  cases env.stod (ws.headD []) <;> rfl

theorem find_three (a b c : Str) (k : Str) :
    EntData.find (EntData.set (EntData.set (EntData.set [] keySurface a) keyColor b) keyLight c) k =
      if k = keySurface then some a else if k = keyColor then some b else if k = keyLight then some c else none := by
  simp only [EntData.find_set, EntData.find]
  by_cases h1 : k = keyLight
  · subst h1; simp [keyLight, keySurface, keyColor]
  · simp only [h1, if_false]
    by_cases h2 : k = keyColor
    · subst h2; simp [keySurface, keyColor]
    · simp [h2]

theorem linesOf_ne (t : Str) : linesOf t ≠ [] := by
  cases t with
  | nil => simp [linesOf]
  | cons b t => unfold linesOf; split <;> [simp; (split <;> simp)]

theorem linesOf_spec (t : Str) : IsLines (linesOf t) t := by
  induction t with
  | nil => simp [linesOf, IsLines]
  | cons b t ih =>
    obtain ⟨h1, h2, h3⟩ := ih
    unfold linesOf
    by_cases hb : b = 10
    · subst hb
      simp only [if_true]
      refine ⟨by simp, by simpa using h2, ?_⟩
      obtain ⟨l, ls, e⟩ := List.exists_cons_of_ne_nil h1
      rw [e] at h3 ⊢
      rw [List.intercalate_cons_cons, ← h3]
      rfl
    · simp only [hb, if_false]
      obtain ⟨l, ls, e⟩ := List.exists_cons_of_ne_nil h1
      rw [e] at h2 h3 ⊢
      refine ⟨by simp, ?_, ?_⟩
      · intro x hx
        rcases List.mem_cons.mp hx with rfl | hx
        · have := h2 l (by simp)
          simp [Ne.symm hb, this]
        · exact h2 x (by simp [hx])
      · cases ls with
        | nil => simp at h3 ⊢; exact h3
        | cons m ls =>
          simp only [List.intercalate_cons_cons] at h3 ⊢
          rw [h3]
          rfl

end Verif.SurfLights
