import Verif.MapUtil.Spec
import Verif.MapText.Lemmas

/-! Helper lemmas: what is written is read back. -/

namespace Verif.MapUtil

open Verif.Parser (State parseToken Flags scan skipSpace isBlank)
open Verif.EntData (Str Dict writePair)
open Verif.MapText (Env Pt word num three point planeDef axis parseStart parseEnd parseEpair wNum wThree word_sp word_word scan_sp scan_nl
  scan_word scan_one num_shown three_shown axis_shown expect_one word40 word41 word91 word93 word123 word125)
open Verif.MapText.Spec (Word Numbers)
open Spec

variable {N : Type}

/-! ### Tokens -/

theorem skipLine_comment (r : Str) : ∀ c : Str, 10 ∉ c → 0 ∉ c → Parser.skipLine (c ++ 10 :: r) = .ok (true, r) := by
  intro c
  induction c with
  | nil => intro _ _; rw [List.nil_append, Parser.skipLine.eq_def]; simp [Parser.NL]
  | cons a c ih =>
    intro h1 h2
    have ha : a ≠ 10 := by rintro rfl; simp at h1
    have ih := ih (by simp at h1; tauto) (by simp at h2; tauto)
    cases c with
    | nil =>
      simp only [List.nil_append] at ih
      simpa [Parser.skipLine, Parser.NL, ha] using ih
    | cons d c =>
      have hd : d ≠ 0 := by rintro rfl; simp at h2
      simp only [List.cons_append] at ih ⊢
      rw [Parser.skipLine]
      simp [Parser.NL, ha, hd, ih]

theorem scan_comment (c r : Str) (l : Nat) (h1 : 10 ∉ c) (h2 : 0 ∉ c) :
    scan 0 {} (47 :: 47 :: (c ++ 10 :: r)) l = scan 0 {} r (l + 1) := by
  rw [EntData.scan_eq]
  have e := skipLine_comment r (47 :: 47 :: c) (by simp [h1]) (by simp [h2])
  simp only [List.cons_append] at e
  simp [skipSpace, Parser.atEnd, isBlank, EntData.afterSkip, Parser.isComment, Parser.SLASH, e]

theorem word_clean {w : Str} (h : Word w) : 10 ∉ w ∧ 0 ∉ w :=
  ⟨fun hc => absurd (h.ink 10 hc).1 (by decide), fun hc => absurd (h.ink 0 hc).1 (by decide)⟩

theorem scan_numbered (s w r : Str) (l : Nat) (hs : 10 ∉ s ∧ 0 ∉ s) (hw : Word w) :
    scan 0 {} (47 :: 47 :: (s ++ (w ++ 10 :: r))) l = scan 0 {} r (l + 1) := by
  have := word_clean hw
  have := scan_comment (s ++ w) r l (by simp [hs, this]) (by simp [hs, this])
  simpa using this

theorem word_blank (w : Str) (hw : Word w) (b : UInt8) (hb : isBlank b = true) (r : Str) (l : Nat) (t : Str) (q : Bool) :
    word ⟨w ++ b :: r, l, t, q⟩ = .ok ⟨b :: r, l, w, false⟩ := by
  simp [word, parseToken, scan_word { sameline := true } rfl w hw b hb]

theorem num_blank (env : Env N) (w : Str) (hw : Word w) (x : N) (hx : env.read w = .ok x) (b : UInt8) (hb : isBlank b = true) (r : Str) (l : Nat)
    (t : Str) (q : Bool) : num env ⟨32 :: (w ++ b :: r), l, t, q⟩ = .ok (x, ⟨b :: r, l, w, false⟩) := by
  simp [num, word_sp, word_blank w hw b hb, hx]

/-- A token that is not a comment is not taken for one. -/
theorem scan_no_comment (w : Str) (hw : Word w) (b : UInt8) (hb : isBlank b = true) (r : Str) (l : Nat) :
    scan 0 { comment := true, optional := true } (w ++ b :: r) l = .ok (false, ⟨w ++ b :: r, l, [], false⟩) := by
  obtain ⟨h1, h2, h3, h4, h5⟩ := hw
  rw [EntData.scan_eq]
  cases w with
  | nil => exact absurd rfl h1
  | cons d w =>
    have hd := h2 d (by simp)
    have hcb : isBlank d = false := by
      simp only [isBlank, Bool.or_eq_false_iff, decide_eq_false_iff_not, UInt8.not_le]
      exact hd
    have hb47 : b ≠ 47 := by rintro rfl; revert hb; decide
    have ec : Parser.isComment (d :: (w ++ b :: r)) = .ok false := by
      simp only [Parser.isComment, Parser.SLASH, Parser.SEMI]
      have h59 : d ≠ 59 := by rintro rfl; exact h4 rfl
      by_cases h47 : d = 47
      · subst h47
        cases w with
        | nil => simp [hb47]
        | cons e w =>
          have : e ≠ 47 := by rintro rfl; exact h5 ⟨w, rfl⟩
          simp [this]
      · simp [h47, h59]
    simp [skipSpace, Parser.atEnd, hcb, EntData.afterSkip, ec]

theorem scan_line_end (fl : Flags) (hfl : fl.optional = true) (r : Str) (l : Nat) :
    scan 0 fl (10 :: r) l = .ok (false, ⟨10 :: r, l, [], false⟩) := by
  rw [EntData.scan_eq]
  simp [skipSpace, Parser.atEnd, isBlank, Parser.NL, hfl, EntData.afterSkip]

/-! ### The end of a face -/

theorem extended_none (env : Env N) (d : Def N) (r : Str) (l : Nat) (t : Str) (q : Bool) :
    extended env d ⟨10 :: r, l, t, q⟩ = .ok ((none, none), ⟨10 :: r, l, [], false⟩) := by
  simp [extended, quarkComment, optInt, parseToken, scan_line_end]

theorem optInt_word (env : Env N) (w : Str) (hw : Word w) (i : Int) (hi : env.readI w = .ok i) (b : UInt8) (hb : isBlank b = true) (r : Str) (l : Nat)
    (t : Str) (q : Bool) : optInt env ⟨w ++ b :: r, l, t, q⟩ = .ok (some i, ⟨b :: r, l, w, false⟩) := by
  simp [optInt, parseToken, scan_word { optional := true } rfl w hw b hb, hi]

theorem optInt_sp (env : Env N) (r : Str) (l : Nat) (t : Str) (q : Bool) : optInt env ⟨32 :: r, l, t, q⟩ = optInt env ⟨r, l, t, q⟩ := by
  simp [optInt, parseToken, scan_sp]

theorem extended_info (env : Env N) (d : Def N) (a b c : Str) (ha : Word a) (hb : Word b) (hc : Word c) (n f v : Int)
    (ra : env.readI a = .ok n) (rb : env.readI b = .ok f) (rc : env.readI c = .ok v) (r : Str) (l : Nat) (t : Str) (q : Bool) :
    extended env d ⟨32 :: (a ++ 32 :: (b ++ 32 :: (c ++ 10 :: r))), l, t, q⟩ =
      .ok ((none, some (n, some f, some v)), ⟨10 :: r, l, [], false⟩) := by
  have e1 : quarkComment d ⟨32 :: (a ++ 32 :: (b ++ 32 :: (c ++ 10 :: r))), l, t, q⟩ =
      .ok (none, ⟨a ++ 32 :: (b ++ 32 :: (c ++ 10 :: r)), l, [], false⟩) := by
    simp [quarkComment, parseToken, scan_sp, scan_no_comment a ha 32 (by decide)]
  have e2 : ∀ t q, quarkComment d ⟨10 :: r, l, t, q⟩ = .ok (none, ⟨10 :: r, l, [], false⟩) := by
    intro t q
    simp [quarkComment, parseToken, scan_line_end]
  simp only [extended, e1, Outcome.ok_bind, optInt_word env a ha n ra 32 (by decide), optInt_sp, optInt_word env b hb f rb 32 (by decide),
    optInt_word env c hc v rc 10 (by decide), e2]

/-- What may follow a definition without a blank: nothing, or the comment of QuArK. -/
def Suffix (env : Env N) (s : Str) : Prop := s = [] ∨ (∃ b, s = txName b) ∧ Stops env

theorem word_suffix {s w : Str} (hs : s = [] ∨ ∃ b, s = txName b) (hw : Word w) (h47 : s ≠ [] → w.head? ≠ some 47) : Word (w ++ s) := by
  rcases hs with rfl | ⟨b, rfl⟩
  · simpa using hw
  · obtain ⟨h1, h2, h3, h4, h5⟩ := hw
    have h47 := h47 (by simp [txName])
    cases w with
    | nil => exact absurd rfl h1
    | cons d w =>
      refine ⟨by simp, ?_, by simpa using h3, by simpa using h4, ?_⟩
      · intro c hc
        rcases List.mem_append.1 hc with hc | hc
        · exact h2 c hc
        · cases b <;> simp [txName] at hc <;> rcases hc with rfl | rfl | rfl | rfl | rfl <;> decide
      · rintro ⟨u, hu⟩
        simp at hu h47
        exact h47 hu.1.symm

theorem suffix_num {env : Env N} (h : Numbers env) {s : Str} (hs : Suffix env s) (x : N) :
    Word (env.shown x ++ s) ∧ env.read (env.shown x ++ s) = .ok x := by
  rcases hs with rfl | ⟨⟨b, rfl⟩, hS⟩
  · simpa using ⟨h.word x, h.read x⟩
  · exact ⟨word_suffix (.inr ⟨b, rfl⟩) (h.word x) fun _ => hS.slash x, hS.read x _⟩

theorem suffix_int {env : Env N} (h : Numbers env) {s : Str} (hs : Suffix env s) (i : Int) (h1 : -2 ^ 31 ≤ i) (h2 : i < 2 ^ 31) :
    Word (env.shownInt i ++ s) ∧ env.readI (env.shownInt i ++ s) = .ok i := by
  rcases hs with rfl | ⟨⟨b, rfl⟩, hS⟩
  · simpa using ⟨h.wordInt i, h.readI i h1 h2⟩
  · exact ⟨word_suffix (.inr ⟨b, rfl⟩) (h.wordInt i) fun _ => hS.slashInt i, hS.readI i _ h1 h2⟩

/-- The last number of a definition with what is behind it, up to the end of the line. -/
theorem tail_shown (env : Env N) (h : Numbers env) (d : N → Def N) (o : Option (Int × Option Int × Option Int))
    (ho : ∀ i, o = some i → InfoOk i) (s : Str) (hs : Suffix env s) (x : N) (r : Str) (l : Nat) :
    ∃ i, wInfo env o = .ok i ∧ ∀ (t : Str) (q : Bool), ∃ st : State, num env ⟨32 :: (env.shown x ++ (i ++ (s ++ 10 :: r))), l, t, q⟩ = .ok (x, st) ∧
      extended env (d x) st = .ok ((none, o), ⟨10 :: r, l, [], false⟩) := by
  cases o with
  | none =>
    refine ⟨[], rfl, fun t q => ?_⟩
    obtain ⟨h1, h2⟩ := suffix_num h hs x
    have := num_blank env _ h1 x h2 10 (by decide) r l t q
    exact ⟨_, by simpa using this, extended_none env _ r l _ _⟩
  | some i =>
    obtain ⟨c, f', v'⟩ := i
    obtain ⟨f, v, e, ⟨a1, a2⟩, ⟨b1, b2⟩, c1, c2⟩ := ho _ rfl
    simp only [Prod.mk.injEq] at e a1 a2
    obtain ⟨rfl, rfl⟩ := e
    refine ⟨_, rfl, fun t q => ?_⟩
    obtain ⟨h1, h2⟩ := suffix_int h hs v c1 c2
    have e1 := num_blank env _ (h.word x) x (h.read x) 32 (by decide) (env.shownInt c ++ 32 :: (env.shownInt f ++ 32 :: (env.shownInt v ++ s ++ 10 :: r))) l t q
    have e2 := extended_info env (d x) _ _ _ (h.wordInt c) (h.wordInt f) h1 c f v (h.readI _ a1 a2) (h.readI _ b1 b2) h2 r l (env.shown x) false
    exact ⟨_, by simpa using e1, e2⟩

/-! ### Faces -/

/-- The text of a definition. -/
theorem textureDef_shown (env : Env N) (h : Numbers env) (quark : Bool) (hq : quark = true → Stops env) (f : Face N) (hf : FaceOk quark f) (r : Str) (l : Nat) :
    ∃ d, wDef env f = .ok d ∧ ∀ (t : Str) (q : Bool), ∃ t' q', textureDef env false ⟨32 :: (f.tex ++ 32 :: (d ++ 10 :: r)), l, t, q⟩ =
      .ok ((f.tex, plainDef f.tdef, f.info), ⟨10 :: r, l, t', q'⟩) := by
  obtain ⟨htex, hdef, hinfo⟩ := hf
  have hk : ∀ (x : N) (y : Str), parseToken 0 { sameline := true } true ⟨32 :: (env.shown x ++ 32 :: y), l, f.tex, false⟩ =
      .ok (true, ⟨32 :: (env.shown x ++ 32 :: y), l, env.shown x, false⟩) := by
    intro x y
    simp [parseToken, scan_sp, scan_word { sameline := true } rfl _ (h.word x) 32 (by decide)]
  have main : ∀ (sh : N × N) (ro : N) (sc : N × N) (s : Str), Suffix env s → ∃ d, wQuaked env sh ro sc f.info = .ok d ∧
      ∀ (t : Str) (q : Bool), ∃ t' q', textureDef env false ⟨32 :: (f.tex ++ 32 :: (d ++ s ++ 10 :: r)), l, t, q⟩ =
        .ok ((f.tex, .quaked sh ro sc, f.info), ⟨10 :: r, l, t', q'⟩) := by
    intro sh ro sc s hs
    obtain ⟨i, hi, ht⟩ := tail_shown env h (fun x => .quaked sh ro (sc.1, x)) f.info hinfo s hs sc.2 r l
    refine ⟨_, by simp only [wQuaked, hi, Outcome.ok_bind]; rfl, fun t q => ?_⟩
    obtain ⟨st, e1, e2⟩ := ht (env.shown sc.1) false
    refine ⟨[], false, ?_⟩
    simp only [textureDef, Bool.false_eq_true, if_false, wNum, List.append_assoc, List.cons_append, List.nil_append,
      word_sp, word_word _ htex, Outcome.ok_bind]
    rw [hk]
    simp only [Outcome.ok_bind, h.bracket, if_false, quakeTX, num_shown env h, e1, e2, Def.withQuark]
  cases hd : f.tdef with
  | quaked sh ro sc =>
    obtain ⟨d, h1, h2⟩ := main sh ro sc [] (.inl rfl)
    refine ⟨d, by simpa [wDef, hd] using h1, ?_⟩
    simpa [plainDef, hd] using h2
  | etp sh ro sc b =>
    rw [hd] at hdef
    obtain ⟨d, h1, h2⟩ := main sh ro sc (txName b) (.inr ⟨⟨b, rfl⟩, hq hdef⟩)
    refine ⟨d ++ txName b, by simp [wDef, hd, h1], ?_⟩
    simpa [plainDef, hd] using h2
  | valve s u rot sc =>
    rw [hd] at hdef
    cases rot with
    | none => exact absurd rfl hdef
    | some ro =>
      obtain ⟨i, hi, ht⟩ := tail_shown env h (fun x => .valve s u (some ro) (sc.1, x)) f.info hinfo [] (.inl rfl) sc.2 r l
      refine ⟨_, by simp only [wDef, hd, hi, Outcome.ok_bind]; rfl, fun t q => ?_⟩
      obtain ⟨st, e1, e2⟩ := ht (env.shown sc.1) false
      refine ⟨[], false, ?_⟩
      have hk : ∀ x : Str, parseToken 0 { sameline := true } true ⟨32 :: 91 :: 32 :: x, l, f.tex, false⟩ =
          .ok (true, ⟨32 :: 91 :: 32 :: x, l, [91], false⟩) := by
        intro x
        simp [parseToken, scan_sp, scan_one { sameline := true } rfl 91 word91 32 (by decide)]
      simp only [List.nil_append] at e1
      simp only [textureDef, Bool.false_eq_true, if_false, wNum, List.append_assoc, List.cons_append, List.nil_append,
        word_sp, word_word _ htex, Outcome.ok_bind]
      rw [hk]
      simp only [Outcome.ok_bind, if_true, valveTX, axis_shown env h, num_shown env h, e1, e2, Def.withQuark, plainDef]
  | prim s u => rw [hd] at hdef; exact absurd hdef (by simp [DefOk])

theorem planeDef_shown (env : Env N) (h : Numbers env) (a b c : Pt N) (r : Str) (l : Nat) (q : Bool) :
    planeDef env ⟨32 :: (wThree env a ++ 41 :: 32 :: (wPoint env b ++ (wPoint env c ++ r))), l, [40], q⟩ =
      .ok ((a, b, c), ⟨32 :: r, l, [41], false⟩) := by
  simp [planeDef, MapText.point_shown env h, parseToken, wPoint, scan_sp, scan_one {} rfl 40 word40 32 (by decide)]

/-- A face, with its line. -/
theorem face_shown (env : Env N) (h : Numbers env) (quark : Bool) (hq : quark = true → Stops env) (f : Face N) (hf : FaceOk quark f) :
    ∃ u, wFace env f = .ok (40 :: u) ∧ ∀ (r : Str) (l : Nat), ∃ r', (40 :: u) ++ r = 40 :: 32 :: r' ∧ ∃ t' q',
      parseFace env false ⟨32 :: r', l, [40], false⟩ = .ok (plainFace f, ⟨10 :: r, l, t', q'⟩) := by
  obtain ⟨d, hd, _⟩ := textureDef_shown env h quark hq f hf [] 0
  refine ⟨_, by simp only [wFace, hd, Outcome.ok_bind, wPoint, List.append_assoc, List.cons_append, List.nil_append]; rfl, fun r l => ?_⟩
  obtain ⟨d', hd', ht⟩ := textureDef_shown env h quark hq f hf r l
  obtain rfl : d = d' := by rw [hd] at hd'; exact Outcome.ok.inj hd'
  obtain ⟨t', q', e⟩ := ht [41] false
  refine ⟨wThree env f.p0 ++ 41 :: 32 :: (wPoint env f.p1 ++ (wPoint env f.p2 ++ (f.tex ++ 32 :: (d ++ 10 :: r)))), by simp [wPoint], t', q', ?_⟩
  simp only [parseFace, planeDef_shown env h, Outcome.ok_bind, e, plainFace]

theorem pts_plain (f : Face N) : (plainFace f).pts = f.pts := rfl

/-- The faces of a brush, up to the brace. -/
theorem faces_shown (env : Env N) (h : Numbers env) (quark : Bool) (hq : quark = true → Stops env) : ∀ (b acc : List (Face N))
    (_ : ∀ f ∈ b, FaceOk quark f) (_ : ∀ a f c, acc ++ b = a ++ f :: c → env.keep (a.map Face.pts) f.pts = true),
    ∃ u, wAll (wFace env) b = .ok u ∧ b.length ≤ u.length ∧ (b ≠ [] → ∃ v, u = 40 :: 32 :: v) ∧ ∀ (r : Str) (k l : Nat) (t : Str) (q : Bool), b.length < k →
      ∃ l', parseFaces env false k (acc.map plainFace) ⟨10 :: (u ++ 125 :: 10 :: r), l, t, q⟩ =
        .ok ((acc ++ b).map plainFace, ⟨10 :: r, l', [125], false⟩) := by
  intro b
  induction b with
  | nil =>
    intro acc _ _
    refine ⟨[], rfl, by simp, by simp, fun r k l t q hk => ?_⟩
    obtain ⟨k, rfl⟩ : ∃ m, k = m + 1 := ⟨k - 1, by simp at hk; omega⟩
    refine ⟨l + 1, ?_⟩
    simp [parseFaces, parseToken, scan_nl, scan_one {} rfl 125 word125 10 (by decide)]
  | cons f b ih =>
    intro acc hf hkeep
    obtain ⟨u, hu, hp⟩ := face_shown env h quark hq f (hf f (by simp))
    obtain ⟨w, hw, hlen, -, hr⟩ := ih (acc ++ [f]) (fun g hg => hf g (by simp [hg])) (fun a g c hc => hkeep a g c (by simpa using hc))
    refine ⟨40 :: u ++ w, by simp [wAll, hu, hw], by simp; omega, ?_, ?_⟩
    · intro _
      obtain ⟨r', e, _⟩ := hp w 0
      exact ⟨r', e⟩
    intro r k l t q hk
    obtain ⟨k, rfl⟩ : ∃ m, k = m + 1 := ⟨k - 1, by simp at hk; omega⟩
    obtain ⟨r', e, t', q', hpf⟩ := hp (w ++ 125 :: 10 :: r) (l + 1)
    obtain ⟨l', e2⟩ := hr r k (l + 1) t' q' (by simp at hk; omega)
    refine ⟨l', ?_⟩
    have hk1 := hkeep acc f b rfl
    have hm : (acc.map plainFace).map Face.pts = acc.map Face.pts := by
      rw [List.map_map]; exact List.map_congr_left fun g _ => pts_plain g
    have hs : scan 0 {} (10 :: (40 :: u ++ w ++ 125 :: 10 :: r)) l = .ok (true, ⟨32 :: r', l + 1, [40], false⟩) := by
      rw [List.append_assoc, e, scan_nl, scan_one {} rfl 40 word40 32 (by decide)]
    have h40 : ¬ (([40] : Str) = [125]) := by decide
    simp only [parseFaces, parseToken, Bool.false_eq_true, if_false, hs, Outcome.ok_bind, Bool.true_eq_false, h40, or_self, hpf, hm, pts_plain, hk1,
      if_true]
    rw [List.map_append] at e2
    simpa using e2

/-! ### Brushes -/

theorem brush_shown (env : Env N) (h : Numbers env) (quark : Bool) (hq : quark = true → Stops env) (b : Brush N) (hb : BrushOk env quark b) :
    ∃ u, wBrush env b = .ok (123 :: 10 :: u) ∧ ∀ (r : Str) (l : Nat) (t : Str) (q : Bool),
      ∃ l', parseBrush env ⟨10 :: (u ++ r), l, t, q⟩ = .ok (plainBrush b, ⟨10 :: r, l', [125], false⟩) := by
  obtain ⟨hpr, hne, hf, hk⟩ := hb
  obtain ⟨u, hu, hlen, hst, hp⟩ := faces_shown env h quark hq b.faces [] hf (by simpa using hk)
  refine ⟨u ++ [125, 10], by simp [wBrush, hu, hpr], fun r l t q => ?_⟩
  obtain ⟨v, hv⟩ := hst hne
  have hs : parseStart ⟨10 :: (u ++ 125 :: 10 :: r), l, t, q⟩ = .ok (false, ⟨10 :: (u ++ 125 :: 10 :: r), l, [40], false⟩) := by
    rw [hv]
    simp [parseStart, parseToken, scan_nl, scan_one {} rfl 40 word40 32 (by decide)]
  obtain ⟨l', e⟩ := hp r ((10 :: (u ++ 125 :: 10 :: r)).length + 1) l [40] false (by simp only [List.length_cons, List.length_append]; omega)
  refine ⟨l', ?_⟩
  simp only [List.map_nil, List.nil_append] at e
  simp only [parseBrush, List.append_assoc, List.cons_append, List.nil_append, hs, Outcome.ok_bind, e, parseEnd, Bool.false_eq_true, if_false, plainBrush, hpr]

theorem brushes_shown (env : Env N) (h : Numbers env) (quark : Bool) (hq : quark = true → Stops env) (d : Dict) : ∀ (bs acc : List (Brush N)) (i : Nat)
    (_ : ∀ b ∈ bs, BrushOk env quark b),
    ∃ u, wBrushes env i bs = .ok u ∧ bs.length ≤ u.length ∧ ∀ (r : Str) (k l : Nat) (t : Str) (q : Bool), bs.length < k →
      ∃ l', parseBody env k ⟨d, acc⟩ ⟨10 :: (u ++ 125 :: 10 :: r), l, t, q⟩ = .ok (⟨d, acc ++ bs.map plainBrush⟩, ⟨10 :: r, l', [125], false⟩) := by
  intro bs
  induction bs with
  | nil =>
    intro acc i _
    refine ⟨[], rfl, by simp, fun r k l t q hk => ?_⟩
    obtain ⟨k, rfl⟩ : ∃ m, k = m + 1 := ⟨k - 1, by simp at hk; omega⟩
    refine ⟨l + 1, ?_⟩
    simp [parseBody, parseToken, scan_nl, scan_one {} rfl 125 word125 10 (by decide)]
  | cons b bs ih =>
    intro acc i hb
    obtain ⟨u, hu, hp⟩ := brush_shown env h quark hq b (hb b (by simp))
    obtain ⟨w, hw, hlen, hr⟩ := ih (acc ++ [plainBrush b]) (i + 1) (fun c hc => hb c (by simp [hc]))
    refine ⟨_, by simp only [wBrushes, hu, hw, Outcome.ok_bind]; rfl, by simp; omega, ?_⟩
    intro r k l t q hk
    obtain ⟨k, rfl⟩ : ∃ m, k = m + 1 := ⟨k - 1, by simp at hk; omega⟩
    obtain ⟨l1, e⟩ := hp (w ++ 125 :: 10 :: r) (l + 1 + 1) [123] false
    obtain ⟨l2, e2⟩ := hr r k l1 [125] false (by simp at hk; omega)
    refine ⟨l2, ?_⟩
    have hs : scan 0 {} (10 :: (brushLine ++ env.shownInt (i : Int) ++ [10] ++ (123 :: 10 :: u) ++ w ++ 125 :: 10 :: r)) l =
        .ok (true, ⟨10 :: (u ++ (w ++ 125 :: 10 :: r)), l + 1 + 1, [123], false⟩) := by
      have := scan_numbered [32, 98, 114, 117, 115, 104, 32] (env.shownInt (i : Int)) (123 :: 10 :: (u ++ (w ++ 125 :: 10 :: r))) (l + 1)
        (by decide) (h.wordInt _)
      rw [scan_one {} rfl 123 word123 10 (by decide)] at this
      rw [scan_nl, ← this]
      simp [brushLine]
    have h1 : ¬ (([123] : Str) = [125]) := by decide
    have hn : (plainBrush b).faces.isEmpty = false := by
      have := (hb b (by simp)).nonempty
      simpa [plainBrush] using this
    simp only [parseBody, parseToken, Bool.false_eq_true, if_false, hs, Outcome.ok_bind, Bool.true_eq_false, h1, if_true, e, hn]
    simpa using e2

/-! ### Entities -/

theorem pairs_shown (env : Env N) (hkey : env.key = MapText.trimKey) (x : Str) : ∀ (d acc : Dict) (k l : Nat) (t : Str) (q : Bool)
    (_ : ((acc ++ d).map Prod.fst).Nodup) (_ : ∀ kv ∈ d, EntData.KeyOk kv.1 ∧ kv.1 ≠ [123])
    (_ : ∀ kv ∈ d, EntData.Body kv.2 ∨ ∃ t, kv.2 = t ++ [92] ∧ EntData.Body t),
    ∃ l' t' q', parseBody env (k + d.length) ⟨acc, ([] : List (Brush N))⟩ ⟨10 :: ((d.map writePair).flatten ++ x), l, t, q⟩ =
      parseBody env k ⟨acc ++ d, []⟩ ⟨10 :: x, l', t', q'⟩ := by
  intro d
  induction d with
  | nil => intro acc k l t q _ _ _; exact ⟨l, t, q, by simp⟩
  | cons kv d ih =>
    intro acc k l t q hnd hk hv
    obtain ⟨key, v⟩ := kv
    have hk1 := hk (key, v) (by simp)
    have hv1 := hv (key, v) (by simp)
    simp only at hk1 hv1
    have hfresh : key ∉ acc.map Prod.fst := by
      rw [List.map_append] at hnd
      have := (List.nodup_append.1 hnd).2.2
      intro h
      exact this key h key (by simp) rfl
    obtain ⟨l', t', q', e⟩ := ih (acc ++ [(key, v)]) k (l + 1) v true (by simpa using hnd)
      (fun y hy => hk y (by simp [hy])) (fun y hy => hv y (by simp [hy]))
    refine ⟨l', t', q', ?_⟩
    have hs : scan 0 {} (10 :: ((((key, v) :: d).map writePair).flatten ++ x)) l =
        .ok (true, ⟨32 :: 34 :: (v ++ 34 :: 10 :: ((d.map writePair).flatten ++ x)), l + 1, key, true⟩) := by
      rw [scan_nl]
      have e : (((key, v) :: d).map writePair).flatten ++ x
          = 34 :: (key ++ 34 :: (32 :: 34 :: (v ++ 34 :: 10 :: ((d.map writePair).flatten ++ x)))) := by
        simp [writePair]
      rw [e]
      exact EntData.scan_quoted (by simp) (EntData.quoted_key hk1.1.body _)
    have hp : parseEpair env acc ⟨32 :: 34 :: (v ++ 34 :: 10 :: ((d.map writePair).flatten ++ x)), l + 1, key, true⟩ =
        .ok (acc ++ [(key, v)], ⟨10 :: ((d.map writePair).flatten ++ x), l + 1, v, true⟩) := by
      simp [parseEpair, hkey, MapText.trimKey, MapText.trimFront_ok hk1.1.first, MapText.trimEnd_ok hk1.1.last, MapText.word_quoted hv1,
        EntData.set_append hfresh]
    rw [show k + ((key, v) :: d).length = (k + d.length) + 1 by simp; omega]
    simp only [parseBody, parseToken, Bool.false_eq_true, if_false, hs, Outcome.ok_bind, Bool.true_eq_false, hk1.1.brace, hk1.2, hp]
    simpa using e

theorem ent_shown (env : Env N) (h : Numbers env) (hkey : env.key = MapText.trimKey) (quark : Bool) (hq : quark = true → Stops env) (e : Ent N)
    (he : EntOk env quark e) : ∃ u, wEnt env e = .ok (123 :: 10 :: u) ∧ ∀ (r : Str) (k l : Nat) (t : Str) (q : Bool), u.length < k →
      ∃ l', parseBody env k ⟨[], []⟩ ⟨10 :: (u ++ r), l, t, q⟩ = .ok (plainEnt e, ⟨10 :: r, l', [125], false⟩) := by
  obtain ⟨d, bs⟩ := e
  obtain ⟨h1, h2, h3, h4⟩ := he
  simp only at h1 h2 h3 h4
  obtain ⟨u, hu, hlen, hp⟩ := brushes_shown env h quark hq d bs [] 0 h4
  refine ⟨(d.map writePair).flatten ++ (u ++ [125, 10]), by simp [wEnt, hu], fun r k l t q hk => ?_⟩
  have hl := MapText.length_pairs d
  simp only [List.length_append, List.length_cons, List.length_nil] at hk
  obtain ⟨l1, t1, q1, e1⟩ := pairs_shown env hkey (u ++ 125 :: 10 :: r) d [] (k - d.length) l t q (by simpa using h1) h2 h3
  obtain ⟨l2, e2⟩ := hp r (k - d.length) l1 t1 q1 (by omega)
  refine ⟨l2, ?_⟩
  rw [show k - d.length + d.length = k by omega] at e1
  simp only [List.nil_append] at e1 e2
  simp only [List.append_assoc, List.cons_append, List.nil_append]
  rw [e1, e2]
  rfl

theorem ents_shown (env : Env N) (h : Numbers env) (hkey : env.key = MapText.trimKey) (quark : Bool) (hq : quark = true → Stops env) :
    ∀ (es acc : List (Ent N)) (i : Nat) (_ : ∀ e ∈ es, EntOk env quark e),
    ∃ u, wEnts env i es = .ok u ∧ es.length ≤ u.length ∧ ∀ (x : Str) (k l : Nat) (t : Str) (q : Bool), x = [] ∨ x = [10] → es.length < k →
      parseEnts env k acc ⟨x ++ u, l, t, q⟩ = .ok (acc ++ es.map plainEnt) := by
  intro es
  induction es with
  | nil =>
    intro acc i _
    refine ⟨[], rfl, by simp, fun x k l t q hx hk => ?_⟩
    obtain ⟨k, rfl⟩ : ∃ m, k = m + 1 := ⟨k - 1, by simp at hk; omega⟩
    have hs : ∃ l1, scan 0 {} x l = .ok (false, ⟨[], l1, [], false⟩) := by
      have e : ∀ l, scan 0 {} [] l = .ok (false, ⟨[], l, [], false⟩) := by
        intro l
        rw [EntData.scan_eq]
        simp [skipSpace, EntData.afterSkip]
      rcases hx with rfl | rfl
      · exact ⟨l, e l⟩
      · exact ⟨l + 1, by simpa [scan_nl] using e (l + 1)⟩
    obtain ⟨l1, hs⟩ := hs
    simp [parseEnts, parseEntity, parseToken, hs]
  | cons e es ih =>
    intro acc i he
    obtain ⟨u, hu, hp⟩ := ent_shown env h hkey quark hq e (he e (by simp))
    obtain ⟨w, hw, hlen, hr⟩ := ih (acc ++ [plainEnt e]) (i + 1) (fun y hy => he y (by simp [hy]))
    refine ⟨_, by simp only [wEnts, hu, hw, Outcome.ok_bind]; rfl, by simp; omega, ?_⟩
    intro x k l t q hx hk
    obtain ⟨k, rfl⟩ : ∃ m, k = m + 1 := ⟨k - 1, by simp at hk; omega⟩
    have hs : ∃ l1, scan 0 {} (x ++ (entityLine ++ env.shownInt (i : Int) ++ [10] ++ (123 :: 10 :: u) ++ w)) l =
        .ok (true, ⟨10 :: (u ++ w), l1, [123], false⟩) := by
      have hs : ∀ l, scan 0 {} (entityLine ++ env.shownInt (i : Int) ++ [10] ++ (123 :: 10 :: u) ++ w) l =
          .ok (true, ⟨10 :: (u ++ w), l + 1, [123], false⟩) := by
        intro l
        have := scan_numbered [32, 101, 110, 116, 105, 116, 121, 32] (env.shownInt (i : Int)) (123 :: 10 :: (u ++ w)) l
          (by decide) (h.wordInt _)
        rw [scan_one {} rfl 123 word123 10 (by decide)] at this
        rw [← this]
        simp [entityLine]
      rcases hx with rfl | rfl
      · exact ⟨_, by simpa using hs l⟩
      · exact ⟨_, by rw [List.cons_append, List.nil_append, scan_nl]; exact hs (l + 1)⟩
    obtain ⟨l1, hs⟩ := hs
    obtain ⟨l2, e2⟩ := hp w ((10 :: (u ++ w)).length + 1) l1 [123] false (by simp only [List.length_cons, List.length_append]; omega)
    have e3 := hr [10] k l2 [125] false (.inr rfl) (by simp at hk; omega)
    simp only [List.cons_append, List.nil_append] at e3
    simp only [parseEnts, parseEntity, parseToken, Bool.false_eq_true, if_false, hs, Outcome.ok_bind, Bool.true_eq_false, ne_eq, not_true_eq_false, e2,
      e3]
    simp

end Verif.MapUtil
