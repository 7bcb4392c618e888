import Verif.MapText.Spec
import Verif.Parser.Lemmas

/-! Helper lemmas: what is written is read back. -/

namespace Verif.MapText

open Verif.Parser (State parseToken Flags scan skipSpace isBlank)
open Verif.EntData (Str Dict writePair)
open Spec

variable {N : Type}

/-! ### Tokens -/

theorem scan_sp (fl : Flags) (r : Str) (l : Nat) : scan 0 fl (32 :: r) l = scan 0 fl r l := by
  apply EntData.scan_congr
  rw [skipSpace]
  simp [Parser.atEnd, isBlank, Parser.NL]

theorem scan_nl (r : Str) (l : Nat) : scan 0 {} (10 :: r) l = scan 0 {} r (l + 1) :=
  EntData.scan_newline (by simp)

theorem unquoted_word (b : UInt8) (hb : isBlank b = true) (r : Str) :
    ∀ w : Str, (∀ c ∈ w, 32 < c ∧ c < 128) → Parser.unquoted (w ++ b :: r) = .ok (w, b :: r) := by
  intro w
  induction w with
  | nil => intro _; simp [Parser.unquoted, hb]
  | cons c w ih =>
    intro h
    have hc := h c (by simp)
    have : isBlank c = false := by
      simp only [isBlank, Bool.or_eq_false_iff, decide_eq_false_iff_not, UInt8.not_le]
      exact hc
    simp [Parser.unquoted, this, ih (fun d hd => h d (by simp [hd]))]

theorem scan_word (fl : Flags) (hfl : fl.comment = false) (w : Str) (hw : Word w) (b : UInt8) (hb : isBlank b = true)
    (r : Str) (l : Nat) : scan 0 fl (w ++ b :: r) l = .ok (true, ⟨b :: r, l, w, false⟩) := by
  obtain ⟨h1, h2, h3, h4, h5⟩ := hw
  rw [EntData.scan_eq]
  have hu := unquoted_word b hb r w h2
  cases w with
  | nil => exact absurd rfl h1
  | cons c w =>
    have hc := h2 c (by simp)
    have hcb : isBlank c = false := by
      simp only [isBlank, Bool.or_eq_false_iff, decide_eq_false_iff_not, UInt8.not_le]
      exact hc
    have e : skipSpace 0 fl (c :: w ++ b :: r) l = .ok (.found (c :: w ++ b :: r) l) := by
      simp [skipSpace, Parser.atEnd, hcb]
    have hb47 : b ≠ 47 := by rintro rfl; revert hb; decide
    have ec : Parser.isComment (c :: w ++ b :: r) = .ok false := by
      simp only [List.cons_append, Parser.isComment, Parser.SLASH, Parser.SEMI]
      have h59 : c ≠ 59 := by rintro rfl; exact h4 rfl
      by_cases h47 : c = 47
      · subst h47
        cases w with
        | nil => simp [hb47]
        | cons d w =>
          have : d ≠ 47 := by rintro rfl; exact h5 ⟨w, rfl⟩
          simp [this]
      · simp [h47, h59]
    have h34 : c ≠ 34 := by rintro rfl; exact h3 rfl
    rw [e]
    simp only [EntData.afterSkip, ec, hfl]
    rw [List.cons_append] at hu ⊢
    simp [Parser.copyToken, Parser.QUOTE, h34, hu]

theorem word_sp (r : Str) (l : Nat) (t : Str) (q : Bool) : word ⟨32 :: r, l, t, q⟩ = word ⟨r, l, t, q⟩ := by
  simp [word, parseToken, scan_sp]

theorem word_word (w : Str) (hw : Word w) (r : Str) (l : Nat) (t : Str) (q : Bool) :
    word ⟨w ++ 32 :: r, l, t, q⟩ = .ok ⟨32 :: r, l, w, false⟩ := by
  simp [word, parseToken, scan_word { sameline := true } rfl w hw 32 (by decide)]

theorem num_shown (env : Env N) (h : Numbers env) (x : N) (r : Str) (l : Nat) (t : Str) (q : Bool) :
    num env ⟨32 :: (env.shown x ++ 32 :: r), l, t, q⟩ = .ok (x, ⟨32 :: r, l, env.shown x, false⟩) := by
  simp [num, word_sp, word_word _ (h.word x), h.read]

theorem three_shown (env : Env N) (h : Numbers env) (v : Pt N) (r : Str) (l : Nat) (t : Str) (q : Bool) :
    three env ⟨32 :: (wThree env v ++ r), l, t, q⟩ = .ok (v, ⟨32 :: r, l, env.shown v.2.2, false⟩) := by
  obtain ⟨x, y, z⟩ := v
  simp [three, wThree, wNum, num_shown env h]

theorem word_one (c : UInt8) (hc : 32 < c ∧ c < 128) (h34 : c ≠ 34) (h59 : c ≠ 59) : Word [c] :=
  ⟨by simp, by simpa using hc, by simpa using h34, by simpa using h59, by
    intro h
    have := h.length_le
    simp at this⟩

theorem expect_one (c : UInt8) (hc : Word [c]) (r : Str) (l : Nat) (t : Str) (q : Bool) :
    expect c ⟨32 :: c :: 32 :: r, l, t, q⟩ = .ok ⟨32 :: r, l, [c], false⟩ := by
  have := word_word [c] hc r l t q
  simp only [List.cons_append, List.nil_append] at this
  simp [expect, word_sp, this]

theorem word40 : Word [40] := word_one 40 (by decide) (by decide) (by decide)
theorem word41 : Word [41] := word_one 41 (by decide) (by decide) (by decide)
theorem word91 : Word [91] := word_one 91 (by decide) (by decide) (by decide)
theorem word93 : Word [93] := word_one 93 (by decide) (by decide) (by decide)
theorem word48 : Word [48] := word_one 48 (by decide) (by decide) (by decide)
theorem word123 : Word [123] := word_one 123 (by decide) (by decide) (by decide)
theorem word125 : Word [125] := word_one 125 (by decide) (by decide) (by decide)

theorem scan_one (fl : Flags) (hfl : fl.comment = false) (c : UInt8) (hc : Word [c]) (b : UInt8) (hb : isBlank b = true) (r : Str)
    (l : Nat) : scan 0 fl (c :: b :: r) l = .ok (true, ⟨b :: r, l, [c], false⟩) := by
  simpa using scan_word fl hfl [c] hc b hb r l

/-! ### Faces -/

theorem point_shown (env : Env N) (h : Numbers env) (v : Pt N) (r : Str) (l : Nat) (q : Bool) :
    point env ⟨32 :: (wThree env v ++ 41 :: 32 :: r), l, [40], q⟩ = .ok (v, ⟨32 :: r, l, [41], false⟩) := by
  simp [point, three_shown env h, expect_one 41 word41]

theorem planeDef_shown (env : Env N) (h : Numbers env) (a b c : Pt N) (r : Str) (l : Nat) (q : Bool) :
    planeDef env ⟨32 :: (wThree env a ++ 41 :: 32 :: (wPoint env b ++ (wPoint env c ++ r))), l, [40], q⟩ =
      .ok ((a, b, c), ⟨32 :: r, l, [41], false⟩) := by
  simp [planeDef, point_shown env h, parseToken, wPoint, scan_sp, scan_one {} rfl 40 word40 32 (by decide)]

theorem extended_info (env : Env N) (a b c : Str) (ha : Word a) (hb : Word b) (hc : Word c) (i : Int × Int × Int)
    (ra : env.readU a = .ok i.1) (rb : env.readI b = .ok i.2.1) (rc : env.readI c = .ok i.2.2) (r : Str) (l : Nat) (t : Str) (q : Bool) :
    extendedTX env ⟨32 :: (a ++ 32 :: (b ++ 32 :: (c ++ 10 :: r))), l, t, q⟩ =
      .ok ((0, some i), ⟨10 :: r, l, c, false⟩) := by
  have e1 : scan 0 { comment := true, optional := true } (a ++ 32 :: (b ++ 32 :: (c ++ 10 :: r))) l =
      .ok (false, ⟨a ++ 32 :: (b ++ 32 :: (c ++ 10 :: r)), l, [], false⟩) := by
    obtain ⟨h1, h2, h3, h4, h5⟩ := ha
    rw [EntData.scan_eq]
    cases a with
    | nil => exact absurd rfl h1
    | cons d w =>
      have hd := h2 d (by simp)
      have hcb : isBlank d = false := by
        simp only [isBlank, Bool.or_eq_false_iff, decide_eq_false_iff_not, UInt8.not_le]
        exact hd
      have ec : ∀ x, Parser.isComment (d :: (w ++ 32 :: x)) = .ok false := by
        intro x
        simp only [Parser.isComment, Parser.SLASH, Parser.SEMI]
        have h59 : d ≠ 59 := by rintro rfl; exact h4 rfl
        by_cases h47 : d = 47
        · subst h47
          cases w with
          | nil => simp
          | cons e w =>
            have : e ≠ 47 := by rintro rfl; exact h5 ⟨w, rfl⟩
            simp [this]
        · simp [h47, h59]
      simp [skipSpace, Parser.atEnd, hcb, EntData.afterSkip, ec]
  simp only [extendedTX, parseToken, Bool.false_eq_true, if_false, scan_sp, e1, Outcome.ok_bind]
  rw [scan_word { optional := true } rfl a ha 32 (by decide)]
  simp only [Outcome.ok_bind, if_true, ra, scan_sp]
  rw [scan_word { optional := true } rfl b hb 32 (by decide)]
  simp only [Outcome.ok_bind, if_true, rb, scan_sp]
  rw [scan_word { optional := true } rfl c hc 10 (by decide)]
  simp [rc]

theorem extended_none (env : Env N) (r : Str) (l : Nat) (t : Str) (q : Bool) :
    extendedTX env ⟨32 :: 10 :: r, l, t, q⟩ = .ok ((0, none), ⟨10 :: r, l, [], false⟩) := by
  have e : ∀ fl : Flags, fl.optional = true → scan 0 fl (10 :: r) l = .ok (false, ⟨10 :: r, l, [], false⟩) := by
    intro fl hfl
    rw [EntData.scan_eq]
    simp [skipSpace, Parser.atEnd, isBlank, Parser.NL, hfl, EntData.afterSkip]
  simp [extendedTX, parseToken, scan_sp, e]

/-- The last part of the line. -/
theorem extended_written (env : Env N) (h : Numbers env) (o : Option (Int × Int × Int)) (ho : ∀ i, o = some i → InfoOk i)
    (r : Str) (l : Nat) (t : Str) (q : Bool) :
    ∃ t' q', extendedTX env ⟨32 :: (wOpt env [] o ++ 10 :: r), l, t, q⟩ =
      .ok ((0, o), ⟨10 :: r, l, t', q'⟩) := by
  cases o with
  | none => exact ⟨_, _, by simpa [wOpt] using extended_none env r l t q⟩
  | some i =>
    obtain ⟨⟨a1, a2⟩, ⟨b1, b2⟩, ⟨c1, c2⟩⟩ := ho i rfl
    have := extended_info env _ _ _ (h.wordInt i.1) (h.wordInt i.2.1) (h.wordInt i.2.2) i (h.readU _ a1 a2) (h.readI _ b1 b2)
      (h.readI _ c1 c2) r l t q
    exact ⟨_, _, by simpa [wInfo, wOpt] using this⟩

theorem axis_shown (env : Env N) (h : Numbers env) (a : Pt N × N) (r : Str) (l : Nat) (t : Str) (q : Bool) :
    axis env ⟨32 :: 91 :: 32 :: (wThree env a.1 ++ (env.shown a.2 ++ 32 :: 93 :: 32 :: r)), l, t, q⟩ =
      .ok (a, ⟨32 :: r, l, [93], false⟩) := by
  obtain ⟨v, d⟩ := a
  simp [axis, expect_one 91 word91, three_shown env h, num_shown env h, expect_one 93 word93]

theorem row_shown (env : Env N) (h : Numbers env) (v : Pt N) (r : Str) (l : Nat) (t : Str) (q : Bool) :
    row env ⟨32 :: 40 :: 32 :: (wThree env v ++ 41 :: 32 :: r), l, t, q⟩ = .ok (v, ⟨32 :: r, l, [41], false⟩) := by
  simp [row, expect_one 40 word40, three_shown env h, expect_one 41 word41]

theorem textureDef_shown (env : Env N) (h : Numbers env) (bp : Bool) (f : Face N) (hf : FaceOk bp f) (r : Str) (l : Nat) (t : Str)
    (q : Bool) :
    ∃ t' q', textureDef env bp ⟨32 :: (wDef env f ++ 10 :: r), l, t, q⟩ =
      .ok ((f.tex, f.tdef, (shownFace bp f).info), ⟨10 :: r, l, t', q'⟩) := by
  obtain ⟨htex, hdef, hinfo⟩ := hf
  cases hd : f.tdef with
  | quaked sh ro sc k =>
    rw [hd] at hdef
    obtain ⟨rfl, rfl⟩ := hdef
    obtain ⟨t', q', e⟩ := extended_written env h f.info hinfo r l (env.shown sc.2) false
    refine ⟨t', q', ?_⟩
    have hk : ∀ x : Str, parseToken 0 { sameline := true } true ⟨32 :: (env.shown sh.1 ++ 32 :: x), l, f.tex, false⟩ =
        .ok (true, ⟨32 :: (env.shown sh.1 ++ 32 :: x), l, env.shown sh.1, false⟩) := by
      intro x
      simp [parseToken, scan_sp, scan_word { sameline := true } rfl _ (h.word sh.1) 32 (by decide)]
    simp only [textureDef, Bool.false_eq_true, if_false, wDef, hd, shownFace, wNum, List.append_assoc, List.cons_append, List.nil_append,
      word_sp, word_word _ htex, Outcome.ok_bind]
    rw [hk]
    simp only [Outcome.ok_bind, h.bracket, if_false, num_shown env h, e]
  | valve s u sc =>
    rw [hd] at hdef
    obtain rfl := hdef
    obtain ⟨t', q', e⟩ := extended_written env h f.info hinfo r l (env.shown sc.2) false
    refine ⟨t', q', ?_⟩
    obtain ⟨z, hz⟩ := h.zero
    have hk : ∀ x : Str, parseToken 0 { sameline := true } true ⟨32 :: 91 :: 32 :: x, l, f.tex, false⟩ =
        .ok (true, ⟨32 :: 91 :: 32 :: x, l, [91], false⟩) := by
      intro x
      simp [parseToken, scan_sp, scan_one { sameline := true } rfl 91 word91 32 (by decide)]
    have hnum : ∀ (x : Str) (t0 : Str) (q0 : Bool), num env ⟨32 :: 48 :: 32 :: x, l, t0, q0⟩ = .ok (z, ⟨32 :: x, l, [48], false⟩) := by
      intro x t0 q0
      have := word_word [48] word48 x l t0 q0
      simp only [List.cons_append, List.nil_append] at this
      simp [num, word_sp, this, hz]
    simp only [textureDef, Bool.false_eq_true, if_false, wDef, hd, shownFace, wNum, List.append_assoc, List.cons_append, List.nil_append,
      word_sp, word_word _ htex, Outcome.ok_bind]
    rw [hk]
    simp only [Outcome.ok_bind, if_true, valveTX, axis_shown env h, hnum, num_shown env h, e]
  | prim s u =>
    rw [hd] at hdef
    obtain rfl := hdef
    have ex : ∃ t' q', extendedTX env ⟨32 :: (wOpt env [48, 32, 48, 32, 48] f.info ++ 10 :: r), l,
        f.tex, false⟩ = .ok ((0, some (f.info.getD (0, 0, 0))), ⟨10 :: r, l, t', q'⟩) := by
      cases hi : f.info with
      | none =>
        have := extended_info env _ _ _ word48 word48 word48 (0, 0, 0) h.zeroU h.zeroI h.zeroI r l f.tex false
        exact ⟨_, _, by simpa [wOpt] using this⟩
      | some i =>
        obtain ⟨t', q', e⟩ := extended_written env h f.info hinfo r l f.tex false
        rw [hi] at e
        exact ⟨t', q', e⟩
    obtain ⟨t', q', e⟩ := ex
    refine ⟨t', q', ?_⟩
    simp only [textureDef, if_true, primTX, wDef, hd, shownFace, List.append_assoc, List.cons_append, List.nil_append,
      expect_one 40 word40, Outcome.ok_bind, row_shown env h, expect_one 41 word41, word_sp, word_word _ htex, e]

theorem parseFace_shown (env : Env N) (h : Numbers env) (bp : Bool) (f : Face N) (hf : FaceOk bp f) (r : Str) (l : Nat) (q : Bool) :
    ∃ t' q', parseFace env bp ⟨32 :: (wThree env f.p0 ++ 41 :: 32 :: (wPoint env f.p1 ++ (wPoint env f.p2 ++ (wDef env f ++ 10 :: r)))), l,
      [40], q⟩ = .ok (shownFace bp f, ⟨10 :: r, l, t', q'⟩) := by
  obtain ⟨t', q', e⟩ := textureDef_shown env h bp f hf r l [41] false
  refine ⟨t', q', ?_⟩
  simp only [parseFace, planeDef_shown env h, Outcome.ok_bind, e]
  cases bp <;> simp [shownFace]

theorem pts_shown (bp : Bool) (f : Face N) : (shownFace bp f).pts = f.pts := by cases bp <;> simp [shownFace, Face.pts]
theorem tex_shown (bp : Bool) (f : Face N) : (shownFace bp f).tex = f.tex := by cases bp <;> simp [shownFace]

/-- The faces of a brush, up to the brace. -/
theorem parseFaces_shown (env : Env N) (h : Numbers env) (bp : Bool) (r : Str) : ∀ (b acc : List (Face N)) (k l : Nat) (t : Str) (q : Bool)
    (_ : b.length < k) (_ : ∀ f ∈ b, FaceOk bp f) (_ : ∀ a f c, acc ++ b = a ++ f :: c → env.keep (a.map Face.pts) f.pts = true),
    ∃ l', parseFaces env bp k (acc.map (shownFace bp)) ⟨10 :: ((b.map (wFace env)).flatten ++ 125 :: 10 :: r), l, t, q⟩ =
      .ok ((acc ++ b).map (shownFace bp), ⟨10 :: r, l', [125], false⟩) := by
  intro b
  induction b with
  | nil =>
    intro acc k l t q hk hf hkeep
    obtain ⟨k, rfl⟩ : ∃ m, k = m + 1 := ⟨k - 1, by simp at hk; omega⟩
    refine ⟨l + 1, ?_⟩
    simp [parseFaces, parseToken, scan_nl, scan_one {} rfl 125 word125 10 (by decide)]
  | cons f b ih =>
    intro acc k l t q hk hf hkeep
    obtain ⟨k, rfl⟩ : ∃ m, k = m + 1 := ⟨k - 1, by simp at hk; omega⟩
    obtain ⟨t', q', e⟩ := parseFace_shown env h bp f (hf f (by simp)) ((b.map (wFace env)).flatten ++ 125 :: 10 :: r) (l + 1) false
    obtain ⟨l', e2⟩ := ih (acc ++ [f]) k (l + 1) t' q' (by simp at hk; omega) (fun g hg => hf g (by simp [hg]))
      (fun a g c hc => hkeep a g c (by simpa using hc))
    refine ⟨l', ?_⟩
    have hk1 := hkeep acc f b rfl
    have hm : (acc.map (shownFace bp)).map Face.pts = acc.map Face.pts := by
      rw [List.map_map]; exact List.map_congr_left fun g _ => pts_shown bp g
    have hs : scan 0 {} (10 :: (((f :: b).map (wFace env)).flatten ++ 125 :: 10 :: r)) l =
        .ok (true, ⟨32 :: (wThree env f.p0 ++ 41 :: 32 :: (wPoint env f.p1 ++ (wPoint env f.p2 ++ (wDef env f ++
          10 :: ((b.map (wFace env)).flatten ++ 125 :: 10 :: r))))), l + 1, [40], false⟩) := by
      simp [wFace, wPoint, scan_nl, scan_sp, scan_one {} rfl 40 word40 32 (by decide)]
    have h40 : ¬ (([40] : Str) = [125]) := by decide
    simp only [parseFaces, parseToken, Bool.false_eq_true, if_false, hs, Outcome.ok_bind, Bool.true_eq_false, h40, or_self, e,
      hm, pts_shown, hk1, if_true]
    rw [List.map_append] at e2
    simpa using e2

/-! ### Brushes -/

theorem not_region (bp : Bool) (b : List (Face N)) (h : ¬ ∀ f ∈ b, regionName <:+ f.tex) :
    isAnti (b.map (shownFace bp)) = false ∧ isRegion (b.map (shownFace bp)) = false := by
  have h2 : ∃ f ∈ b, ¬ regionName <:+ f.tex := by
    by_contra hc
    exact h fun f hf => by by_contra hn; exact hc ⟨f, hf, hn⟩
  obtain ⟨f, hf, hn⟩ := h2
  have hne : endsWith f.tex regionName = false := by rw [Bool.eq_false_iff]; intro hc; exact hn (List.isSuffixOf_iff_suffix.1 hc)
  have hna : endsWith f.tex antiName = false := by
    rw [Bool.eq_false_iff]
    intro hc
    have hc : antiName <:+ f.tex := by simpa [endsWith] using hc
    exact hn ((List.suffix_append _ _).trans hc)
  have ha : (b.map (shownFace bp)).all (fun f => endsWith f.tex antiName) = false := by
    rw [List.all_eq_false]
    exact ⟨shownFace bp f, List.mem_map.2 ⟨f, hf, rfl⟩, by simp [tex_shown, hna]⟩
  have hr : (b.map (shownFace bp)).all (fun f => endsWith f.tex regionName) = false := by
    rw [List.all_eq_false]
    exact ⟨shownFace bp f, List.mem_map.2 ⟨f, hf, rfl⟩, by simp [tex_shown, hne]⟩
  refine ⟨by simp [isAnti, ha], ?_⟩
  unfold isRegion
  split
  · rfl
  · rename_i e
    rw [hr, Bool.and_false]

theorem wordDef : Word brushDef := by
  refine ⟨by decide, by decide, by decide, by decide, by decide⟩

theorem length_faces (env : Env N) (b : List (Face N)) : b.length ≤ ((b.map (wFace env)).flatten).length := by
  induction b with
  | nil => simp
  | cons f b ih => 
    rw [List.map_cons, List.flatten_cons, List.length_append, List.length_cons]
    have : 1 ≤ (wFace env f).length := by simp [wFace, wPoint]; try omega
    omega

theorem parseBrush_shown (env : Env N) (h : Numbers env) (bp world region : Bool) (b : List (Face N)) (hb : BrushOk env bp b) (r : Str)
    (l : Nat) (t : Str) (q : Bool) :
    ∃ l', parseBrush env world region ⟨10 :: ((if bp then brushDef ++ [10, 123, 10] else []) ++ ((b.map (wFace env)).flatten ++
      ((if bp then [125, 10] else []) ++ 125 :: 10 :: r))), l, t, q⟩ = .ok ((b.map (shownFace bp), region), ⟨10 :: r, l', [125], false⟩) := by
  obtain ⟨hne, hf, hk, hr⟩ := hb
  obtain ⟨ha, hre⟩ := not_region bp b hr
  cases bp with
  | false =>
    have hs : parseStart ⟨10 :: ((b.map (wFace env)).flatten ++ 125 :: 10 :: r), l, t, q⟩ =
        .ok (false, ⟨10 :: ((b.map (wFace env)).flatten ++ 125 :: 10 :: r), l, [40], false⟩) := by
      cases b with
      | nil => exact absurd rfl hne
      | cons f b =>
        simp [parseStart, parseToken, scan_nl, wFace, wPoint, scan_sp, scan_one {} rfl 40 word40 32 (by decide)]
    obtain ⟨l', e⟩ := parseFaces_shown env h false r b [] ((10 :: ((b.map (wFace env)).flatten ++ 125 :: 10 :: r)).length + 1) l [40] false
      (by have := length_faces env b; simp only [List.length_cons, List.length_append]; omega) hf (by simpa using hk)
    refine ⟨l', ?_⟩
    simp only [List.map_nil, List.nil_append] at e
    simp only [parseBrush, Bool.false_eq_true, if_false, List.nil_append, hs, Outcome.ok_bind, e, ha, false_and, hre, Bool.and_false,
      parseEnd]
  | true =>
    have hs : parseStart ⟨10 :: (brushDef ++ ([10, 123, 10] ++ ((b.map (wFace env)).flatten ++ ([125, 10] ++ 125 :: 10 :: r)))), l, t, q⟩ =
        .ok (true, ⟨10 :: ((b.map (wFace env)).flatten ++ 125 :: 10 :: 125 :: 10 :: r), l + 1 + 1, [123], false⟩) := by
      have h1 : ¬ (brushDef = [40]) := by decide
      have h2 : ¬ (brushDef = [125]) := by decide
      simp [parseStart, parseToken, scan_nl, scan_word {} rfl brushDef wordDef 10 (by decide), h1, h2,
        scan_one {} rfl 123 word123 10 (by decide)]
    obtain ⟨l', e⟩ := parseFaces_shown env h true (125 :: 10 :: r) b []
      ((10 :: ((b.map (wFace env)).flatten ++ 125 :: 10 :: 125 :: 10 :: r)).length + 1) (l + 1 + 1) [123] false
      (by have := length_faces env b; simp only [List.length_cons, List.length_append]; omega) hf (by simpa using hk)
    refine ⟨l' + 1, ?_⟩
    simp only [List.map_nil, List.nil_append] at e
    have he : parseEnd true ⟨10 :: 125 :: 10 :: r, l', [125], false⟩ = .ok ⟨10 :: r, l' + 1, [125], false⟩ := by
      simp [parseEnd, parseToken, scan_nl, scan_one {} rfl 125 word125 10 (by decide)]
    simp only [parseBrush, if_true, List.append_assoc, hs, Outcome.ok_bind, e, ha, Bool.false_eq_true, false_and, if_false, hre,
      Bool.and_false, he]

/-! ### Entities -/

theorem parseBody_brushes (env : Env N) (h : Numbers env) (bp world region : Bool) (r : Str) (pairs : Dict) : ∀ (bs : List (List (Face N)))
    (acc : List (List (Face N))) (k l : Nat) (om : Option Bool) (t : Str) (q : Bool) (_ : bs.length < k) (_ : ∀ b ∈ bs, BrushOk env bp b)
    (_ : bs ≠ [] → om.getD (omitted env pairs) = false),
    ∃ l', parseBody env world k region om ⟨pairs, acc⟩ ⟨10 :: ((bs.map (wBrush env bp)).flatten ++ 125 :: 10 :: r), l, t, q⟩ =
      .ok ((⟨pairs, acc ++ bs.map fun b => b.map (shownFace bp)⟩, region), ⟨10 :: r, l', [125], false⟩) := by
  intro bs
  induction bs with
  | nil =>
    intro acc k l om t q hk _ _
    obtain ⟨k, rfl⟩ : ∃ m, k = m + 1 := ⟨k - 1, by simp at hk; omega⟩
    refine ⟨l + 1, ?_⟩
    simp [parseBody, parseToken, scan_nl, scan_one {} rfl 125 word125 10 (by decide)]
  | cons b bs ih =>
    intro acc k l om t q hk hb hom
    obtain ⟨k, rfl⟩ : ∃ m, k = m + 1 := ⟨k - 1, by simp at hk; omega⟩
    have hom := hom (by simp)
    obtain ⟨l1, e⟩ := parseBrush_shown env h bp world region b (hb b (by simp)) ((bs.map (wBrush env bp)).flatten ++ 125 :: 10 :: r) (l + 1)
      [123] false
    obtain ⟨l2, e2⟩ := ih (acc ++ [b.map (shownFace bp)]) k l1 (some false) [125] false (by simp at hk; omega)
      (fun c hc => hb c (by simp [hc])) (fun _ => rfl)
    refine ⟨l2, ?_⟩
    have hs : scan 0 {} (10 :: (((b :: bs).map (wBrush env bp)).flatten ++ 125 :: 10 :: r)) l =
        .ok (true, ⟨10 :: ((if bp then brushDef ++ [10, 123, 10] else []) ++ ((b.map (wFace env)).flatten ++
          ((if bp then [125, 10] else []) ++ 125 :: 10 :: ((bs.map (wBrush env bp)).flatten ++ 125 :: 10 :: r)))), l + 1, [123], false⟩) := by
      simp [wBrush, scan_nl, scan_one {} rfl 123 word123 10 (by decide)]
    have h1 : ¬ (([123] : Str) = [125]) := by decide
    have hn : (b.map (shownFace bp)).isEmpty = false := by
      have := (hb b (by simp)).nonempty
      cases b with
      | nil => exact absurd rfl this
      | cons => simp
    simp only [parseBody, parseToken, Bool.false_eq_true, if_false, hs, Outcome.ok_bind, Bool.true_eq_false, h1, if_true, hom, e, hn]
    simpa using e2

theorem trimEnd_ok {k : Str} (h : ∃ b, k.getLast? = some b ∧ EntData.Ink b) (n : Nat) : trimEnd (n + 1) k = .ok k := by
  obtain ⟨b, hb, hi⟩ := h
  simp [trimEnd, hb, EntData.isSpace_ink hi]

theorem trimFront_ok {k : Str} (h : ∃ b, k.head? = some b ∧ EntData.Ink b) : EntData.trimFront k = .ok k := by
  obtain ⟨b, hb, hi⟩ := h
  cases k with
  | nil => simp at hb
  | cons a k =>
    simp at hb
    subst hb
    simp [EntData.trimFront, EntData.isSpace_ink hi]

theorem word_quoted {v : Str} (hv : EntData.Body v ∨ ∃ t, v = t ++ [92] ∧ EntData.Body t) (r : Str) (l : Nat) (t : Str) (q : Bool) :
    word ⟨32 :: 34 :: (v ++ 34 :: 10 :: r), l, t, q⟩ = .ok ⟨10 :: r, l, v, true⟩ := by
  rw [word_sp]
  have e : scan 0 { sameline := true } (34 :: (v ++ 34 :: 10 :: r)) l = .ok (true, ⟨10 :: r, l, v, true⟩) := by
    rw [EntData.scan_eq]
    simp [skipSpace, Parser.atEnd, isBlank, EntData.afterSkip, Parser.isComment, Parser.SLASH, Parser.SEMI, Parser.copyToken,
      EntData.quoted_value hv]
  simp [word, parseToken, e]

theorem parseBody_pairs (env : Env N) (hkey : env.key = trimKey) (world region : Bool) (x : Str) : ∀ (d acc : Dict) (k l : Nat) (t : Str) (q : Bool)
    (_ : ((acc ++ d).map Prod.fst).Nodup) (_ : ∀ kv ∈ d, EntData.KeyOk kv.1 ∧ kv.1 ≠ [123])
    (_ : ∀ kv ∈ d, EntData.Body kv.2 ∨ ∃ t, kv.2 = t ++ [92] ∧ EntData.Body t),
    ∃ l' t' q', parseBody env world (k + d.length) region none ⟨acc, ([] : List (List (Face N)))⟩ ⟨10 :: ((d.map writePair).flatten ++ x), l, t, q⟩ =
      parseBody env world k region none ⟨acc ++ d, []⟩ ⟨10 :: x, l', t', q'⟩ := by
  intro d
  induction d with
  | nil => intro acc k l t q _ _ _; exact ⟨l, t, q, by simp⟩
  | cons kv d ih =>
    intro acc k l t q hnd hk hv
    obtain ⟨key, v⟩ := kv
    have hk1 := hk (key, v) (by simp)
    have hv1 := hv (key, v) (by simp)
    simp only at hk1 hv1
    have hfresh : key ∉ acc.map Prod.fst := by
      rw [List.map_append] at hnd
      have := (List.nodup_append.1 hnd).2.2
      intro h
      exact this key h key (by simp) rfl
    obtain ⟨l', t', q', e⟩ := ih (acc ++ [(key, v)]) k (l + 1) v true (by simpa using hnd)
      (fun y hy => hk y (by simp [hy])) (fun y hy => hv y (by simp [hy]))
    refine ⟨l', t', q', ?_⟩
    have hs : scan 0 {} (10 :: ((((key, v) :: d).map writePair).flatten ++ x)) l =
        .ok (true, ⟨32 :: 34 :: (v ++ 34 :: 10 :: ((d.map writePair).flatten ++ x)), l + 1, key, true⟩) := by
      rw [scan_nl]
      have e : (((key, v) :: d).map writePair).flatten ++ x
          = 34 :: (key ++ 34 :: (32 :: 34 :: (v ++ 34 :: 10 :: ((d.map writePair).flatten ++ x)))) := by
        simp [writePair]
      rw [e]
      exact EntData.scan_quoted (by simp) (EntData.quoted_key hk1.1.body _)
    have hp : parseEpair env acc ⟨32 :: 34 :: (v ++ 34 :: 10 :: ((d.map writePair).flatten ++ x)), l + 1, key, true⟩ =
        .ok (acc ++ [(key, v)], ⟨10 :: ((d.map writePair).flatten ++ x), l + 1, v, true⟩) := by
      simp [parseEpair, hkey, trimKey, trimFront_ok hk1.1.first, trimEnd_ok hk1.1.last, word_quoted hv1, EntData.set_append hfresh]
    rw [show k + ((key, v) :: d).length = (k + d.length) + 1 by simp; omega]
    simp only [parseBody, parseToken, Bool.false_eq_true, if_false, hs, Outcome.ok_bind, Bool.true_eq_false, hk1.1.brace, hk1.2, hp]
    simpa using e

theorem find_mem {d : Dict} {k v : Str} (h : EntData.find d k = some v) : (k, v) ∈ d := by
  induction d with
  | nil => simp [EntData.find] at h
  | cons x d ih =>
    obtain ⟨a, w⟩ := x
    simp only [EntData.find] at h
    split at h
    · rename_i e
      subst e
      simp at h
      simp [h]
    · exact List.mem_cons_of_mem _ (ih h)

theorem length_brushes (env : Env N) (bp : Bool) (bs : List (List (Face N))) : bs.length ≤ ((bs.map (wBrush env bp)).flatten).length := by
  induction bs with
  | nil => simp
  | cons f b ih => 
    rw [List.map_cons, List.flatten_cons, List.length_append, List.length_cons]
    have : 1 ≤ (wBrush env bp f).length := by simp [wBrush]; try omega
    omega

theorem length_pairs (d : Dict) : d.length ≤ ((d.map writePair).flatten).length := by
  induction d with
  | nil => simp
  | cons f b ih => 
    rw [List.map_cons, List.flatten_cons, List.length_append, List.length_cons]
    have : 1 ≤ (writePair f).length := by simp [writePair]; try omega
    omega

/-- An entity, behind its brace. -/
theorem parseBody_shown (env : Env N) (h : Numbers env) (hkey : env.key = trimKey) (bp world region : Bool) (e : Ent N) (he : EntOk env bp e) (r : Str) (n l : Nat) (t : Str)
    (q : Bool) (hn : e.pairs.length + e.brushes.length < n) :
    ∃ l', parseBody env world n region none ⟨[], []⟩ ⟨10 :: ((e.pairs.map writePair).flatten ++ ((e.brushes.map (wBrush env bp)).flatten ++
      125 :: 10 :: r)), l, t, q⟩ = .ok ((shownEnt bp e, region), ⟨10 :: r, l', [125], false⟩) := by
  obtain ⟨d, bs⟩ := e
  obtain ⟨h1, h2, h3, h4, h5⟩ := he
  simp only at h1 h2 h3 h4 h5 hn
  obtain ⟨l1, t1, q1, e1⟩ := parseBody_pairs env hkey world region ((bs.map (wBrush env bp)).flatten ++ 125 :: 10 :: r) d [] (n - d.length) l t q
    (by simpa using h1) h2 h3
  obtain ⟨l2, e2⟩ := parseBody_brushes env h bp world region r d bs [] (n - d.length) l1 none t1 q1 (by omega) h4 (by
    intro hne
    rw [Option.getD_none]
    unfold omitted
    simp only
    split
    · rfl
    · rename_i hem
      cases hf : EntData.find d omitKey with
      | none => simp [EntData.get, hf] at hem
      | some v =>
        have hm := find_mem hf
        simp only [EntData.get, hf]
        by_contra hc
        simp at hc
        exact hne (h5 v hm hc))
  refine ⟨l2, ?_⟩
  rw [show n - d.length + d.length = n by omega] at e1
  simp only [List.nil_append] at e1 e2
  simp only [shownEnt]
  rw [e1, e2]

theorem parseEntity_shown (env : Env N) (h : Numbers env) (hkey : env.key = trimKey) (bp world region : Bool) (e : Ent N) (he : EntOk env bp e) (r x : Str) (l : Nat) (t : Str)
    (q : Bool) (hx : x = [] ∨ x = [10]) :
    ∃ l', parseEntity env world region ⟨x ++ (wEnt env bp e ++ r), l, t, q⟩ = .ok (some (shownEnt bp e, region), ⟨10 :: r, l', [125], false⟩) := by
  have hs : ∃ l1, scan 0 {} (x ++ (wEnt env bp e ++ r)) l =
      .ok (true, ⟨10 :: ((e.pairs.map writePair).flatten ++ ((e.brushes.map (wBrush env bp)).flatten ++ 125 :: 10 :: r)), l1, [123], false⟩) := by
    rcases hx with rfl | rfl
    · exact ⟨l, by simp [wEnt, scan_one {} rfl 123 word123 10 (by decide)]⟩
    · exact ⟨l + 1, by simp [wEnt, scan_nl, scan_one {} rfl 123 word123 10 (by decide)]⟩
  obtain ⟨l1, hs⟩ := hs
  obtain ⟨l2, e2⟩ := parseBody_shown env h hkey bp world region e he r
    ((10 :: ((e.pairs.map writePair).flatten ++ ((e.brushes.map (wBrush env bp)).flatten ++ 125 :: 10 :: r))).length + 1) l1 [123] false (by
      have := length_brushes env bp e.brushes
      have := length_pairs e.pairs
      simp only [List.length_cons, List.length_append]
      omega)
  refine ⟨l2, ?_⟩
  simp only [parseEntity, parseToken, Bool.false_eq_true, if_false, hs, Outcome.ok_bind, Bool.true_eq_false, ne_eq, not_true_eq_false, e2]

theorem parseEnts_shown (env : Env N) (h : Numbers env) (hkey : env.key = trimKey) (bp : Bool) (region : Bool) : ∀ (es acc : List (Ent N)) (k l : Nat) (t : Str) (q : Bool)
    (x : Str) (_ : x = [] ∨ x = [10]) (_ : es.length < k) (_ : ∀ e ∈ es, EntOk env bp e),
    parseEnts env k region acc ⟨x ++ wMap env bp es, l, t, q⟩ = .ok (acc ++ es.map (shownEnt bp)) := by
  intro es
  induction es with
  | nil =>
    intro acc k l t q x hx hk _
    obtain ⟨k, rfl⟩ : ∃ m, k = m + 1 := ⟨k - 1, by simp at hk; omega⟩
    have hs : ∃ l1, scan 0 {} (x ++ wMap env bp []) l = .ok (false, ⟨[], l1, [], false⟩) := by
      have e : ∀ l, scan 0 {} [] l = .ok (false, ⟨[], l, [], false⟩) := by
        intro l
        rw [EntData.scan_eq]
        simp [skipSpace, EntData.afterSkip]
      rcases hx with rfl | rfl
      · exact ⟨l, by simpa [wMap] using e l⟩
      · exact ⟨l + 1, by simpa [wMap, scan_nl] using e (l + 1)⟩
    obtain ⟨l1, hs⟩ := hs
    simp [parseEnts, parseEntity, parseToken, hs]
  | cons e es ih =>
    intro acc k l t q x hx hk he
    obtain ⟨k, rfl⟩ : ∃ m, k = m + 1 := ⟨k - 1, by simp at hk; omega⟩
    obtain ⟨l1, e1⟩ := parseEntity_shown env h hkey bp acc.isEmpty region e (he e (by simp)) (wMap env bp es) x l t q hx
    have e2 := ih (acc ++ [shownEnt bp e]) k l1 [125] false [10] (.inr rfl) (by simp at hk; omega) (fun y hy => he y (by simp [hy]))
    have e3 : wMap env bp (e :: es) = wEnt env bp e ++ wMap env bp es := by simp [wMap]
    simp only [List.cons_append, List.nil_append] at e2
    simp only [parseEnts, e3, e1, Outcome.ok_bind, e2]
    simp

theorem length_ents (env : Env N) (bp : Bool) (es : List (Ent N)) : es.length ≤ (wMap env bp es).length := by
  induction es with
  | nil => simp
  | cons e es ih =>
    have e3 : wMap env bp (e :: es) = wEnt env bp e ++ wMap env bp es := by simp [wMap]
    rw [e3]
    simp [wEnt]
    omega

end Verif.MapText
