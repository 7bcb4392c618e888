import Verif.Settings.Props

/-!
Properties of whole command lines and entities: C69-C72.
-/

namespace Verif.Settings

open Verif

/-! ## C42, C43: which options change, and numbers on the command line -/

/-- C42. A map key changes the option it names and no other (unless that option stands for others). -/
theorem key_changes_only_its_option (env : Env) (cs cs' : Container) (name value : Str) (src : Source) (i j : Nat)
    (s : Setting) (res : Result) (hf : Found cs name i s)
    (hk : match s.kind with | .redirect _ => False | .func _ => False | _ => True)
    (h : setSetting env cs name value src = .ok (res, cs')) (hj : j ≠ i) : cs'[j]? = cs[j]? := by
  unfold setSetting at h
  rw [hf.1] at h
  simp only at h
  split at h
  · cases h
  · rw [Outcome.bind_eq_ok] at h
    obtain ⟨r, hr, h⟩ := h
    simp at h
    obtain ⟨_, rfl⟩ := h
    unfold parseAt at hr
    rw [hf.2] at hr
    simp only at hr
    split at hr
    · rename_i hks; rw [hks] at hk; exact hk.elim
    · rename_i hks; rw [hks] at hk; exact hk.elim
    · rw [Outcome.bind_eq_ok] at hr
      obtain ⟨q, _, hq⟩ := hr
      simp at hq
      subst hq
      simp only
      rw [setCell_get, if_neg (fun e => hj e.symm)]

/-- C43, value, on the command line: `-name n` with a decimal number below 2^31 sets the option to the number
clamped to its range. Missing: larger numbers (`big_number_not_clamped`). -/
theorem int_arg_is_clamped_partial (env : Env) (cs : Container) (i : Nat) (s : Setting) (n : Nat) (name : Str)
    (lo hi : Int) (om : Option Int) (ds : List Nat) (rest : List Str)
    (hne : name ≠ []) (hh : name.head? ≠ some 45) (hhelp : isHelp name = false)
    (hf : Found cs name i s) (hk : s.kind = .int lo hi om) (hlo : lo ≤ hi)
    (hd : ∀ d ∈ ds, d < 10) (hds : ds ≠ []) (hv : decValue ds < 2 ^ 31) :
    parseArgs env cs ((List.replicate (n + 1) 45 ++ name) :: digitText ds :: rest) =
      parseArgs env (setCell cs i { s.cell with
        source := .commandLine, value := .int (clampInt (decValue ds) lo hi) }) rest := by
  refine parseArgs_option hne hh hhelp hf.1 ?_
  exact parseAt_int env cs i s name lo hi om .commandLine _ _ ds hf.2 hk hlo hd hds hv
    (by cases s.cell.source <;> decide) (next_cons _ _)

/-! ## C69: aliases -/

/-- The option and everything it leads to reads its argument the same way under every name. -/
def NameBlind (cs : Container) (s : Setting) : Prop :=
  match s.kind with
  | .invertible => False
  | .redirect ts => ∀ t ∈ ts, ∀ u, cs[t]? = some u → (match u.kind with | .invertible => False | _ => True)
  | _ => True

theorem parsePlain_name {σ : Type} [Tokens σ] (env : Env) (k : Kind) (a b : Str) (c : Cell) (src : Source)
    (st : σ) (hk : match k with | .invertible => False | _ => True) :
    parsePlain env k a c src st = parsePlain env k b c src st := by
  cases k <;> first | rfl | exact hk.elim

theorem parseRedirect_name {σ : Type} [Tokens σ] (env : Env) (a b : Str) (src : Source) (ts : List Nat)
    (cs : Container) (st : σ)
    (hk : ∀ t ∈ ts, ∀ u, cs[t]? = some u → (match u.kind with | .invertible => False | _ => True)) :
    parseRedirect env a src cs ts st = parseRedirect env b src cs ts st := by
  induction ts generalizing cs st with
  | nil => rfl
  | cons i ts ih =>
    unfold parseRedirect
    cases hs : cs[i]? with
    | none => rfl
    | some s =>
      simp only
      rw [parsePlain_name env s.kind a b s.cell src st (hk i (by simp) s hs)]
      congr 1
      funext r
      split
      · apply ih
        intro t ht u hu
        rw [setCell_get] at hu
        split at hu
        · rename_i e
          subst e
          rw [hs] at hu
          simp only [Option.map_some, Option.some.injEq] at hu
          subst hu
          exact hk i (by simp) s hs
        · exact hk t (by simp [ht]) u hu
      · rfl

/-- C69. Giving an option under any of its names has the same effect, as a map key and on the command line,
unless the name itself says yes or no (invertible options, C44). -/
theorem aliases_agree (env : Env) (cs : Container) (a b : Str) (i : Nat) (s : Setting)
    (ha : Found cs a i s) (hb : Found cs b i s) (hk : NameBlind cs s) :
    (∀ value src, setSetting env cs a value src = setSetting env cs b value src) ∧
    (∀ rest, a ≠ [] → b ≠ [] → a.head? ≠ some 45 → b.head? ≠ some 45 → isHelp a = false → isHelp b = false →
      parseArgs env cs ((45 :: a) :: rest) = parseArgs env cs ((45 :: b) :: rest)) := by
  have hp : ∀ {σ : Type} [Tokens σ] (src : Source) (st : σ),
      parseAt env cs i a src st = parseAt env cs i b src st := by
    intro σ _ src st
    unfold parseAt
    rw [ha.2]
    simp only
    split
    · rename_i ts hks
      unfold NameBlind at hk
      rw [hks] at hk
      exact parseRedirect_name env a b src ts cs st hk
    · rfl
    · rw [parsePlain_name env s.kind a b s.cell src st]
      unfold NameBlind at hk
      cases h : s.kind <;> simp [h] at hk ⊢
  refine ⟨?_, ?_⟩
  · intro value src
    unfold setSetting
    rw [ha.1, hb.1]
    simp only [hp]
  · intro rest ha0 hb0 ha1 hb1 ha2 hb2
    have drop : ∀ x : Str, x.head? ≠ some 45 → (45 :: x).dropWhile (fun b => decide (b = (45 : UInt8))) = x := by
      intro x hx
      cases x with
      | nil => rfl
      | cons c x => simp at hx; simp [hx]
    rw [parseArgs.eq_def, parseArgs.eq_def]
    simp only [List.head?_cons, ne_eq, not_true_eq_false, if_false]
    rw [drop a ha1, drop b hb1]
    simp only [ha0, hb0, ha2, hb2, if_false, Bool.false_eq_true, ha.1, hb.1]
    rw [hp]

example : ∃ i s, Found [⟨[[118, 101], [118]], .bool, Cell.new (.bool false)⟩] [118] i s ∧
    Found [⟨[[118, 101], [118]], .bool, Cell.new (.bool false)⟩] [118, 101] i s ∧
    NameBlind [⟨[[118, 101], [118]], .bool, Cell.new (.bool false)⟩] s :=
  ⟨0, _, ⟨by decide, rfl⟩, ⟨by decide, rfl⟩, trivial⟩

/-! ## C70: redirects -/

theorem parseRedirect_bools (env : Env) (name : Str) (src : Source) (ts : List Nat) (cs : Container)
    (rest : List Str) (hts : ∀ t ∈ ts, ∃ u, cs[t]? = some u ∧ u.kind = .bool) :
    ∃ cs', parseRedirect env name src cs ts rest =
        .ok (true, cs', if ts.isEmpty then rest else afterBool rest) ∧
      (∀ j, j ∉ ts → cs'[j]? = cs[j]?) ∧
      (∀ t ∈ ts, ∀ u, cs[t]? = some u → priority u.cell.source ≤ priority src →
        cs'[t]? = some { u with cell := { u.cell with source := src, value := .bool (argsSayOn rest) } }) := by
  induction ts generalizing cs with
  | nil => exact ⟨cs, rfl, fun _ _ => rfl, by simp⟩
  | cons i ts ih =>
    obtain ⟨s, hs, hk⟩ := hts i (by simp)
    have hplain : parsePlain env s.kind name s.cell src rest =
        .ok (true, s.cell.setValue (.bool (argsSayOn rest)) src, afterBool rest) := by
      rw [hk]
      simp only [parsePlain, parseBool_args, Outcome.ok_bind, Outcome.pure_eq, Cell.assign]
      cases argsSayOn rest <;> rfl
    have hts' : ∀ t ∈ ts, ∃ u, (setCell cs i (s.cell.setValue (.bool (argsSayOn rest)) src))[t]? = some u ∧
        u.kind = .bool := by
      intro t ht
      obtain ⟨u, hu, hku⟩ := hts t (by simp [ht])
      rw [setCell_get, hu]
      split
      · exact ⟨_, rfl, hku⟩
      · exact ⟨u, rfl, hku⟩
    obtain ⟨cs', h1, h2, h3⟩ := ih _ hts'
    cases hts0 : ts with
    | nil =>
      refine ⟨setCell cs i (s.cell.setValue (.bool (argsSayOn rest)) src), ?_, ?_, ?_⟩
      · unfold parseRedirect
        rw [hs]
        simp only [hplain, Outcome.ok_bind, if_true, parseRedirect, List.isEmpty_nil]
        rfl
      · intro j hj
        rw [setCell_get, if_neg (by simp at hj; omega)]
      · intro t ht u hu hp
        simp at ht
        subst ht
        rw [hs] at hu
        obtain rfl := Option.some.inj hu
        rw [setCell_get, if_pos rfl, hs, setValue_accepted hp]
        rfl
    | cons t0 ts0 =>
      rw [hts0] at h1 h2 h3
      refine ⟨cs', ?_, ?_, ?_⟩
      · unfold parseRedirect
        rw [hs]
        simp only [hplain, Outcome.ok_bind, if_true, List.isEmpty_cons, Bool.false_eq_true, if_false]
        rw [h1]
        rfl
      · intro j hj
        rw [h2 j (by simp at hj ⊢; tauto), setCell_get, if_neg (by simp at hj; omega)]
      · intro t ht u hu hp
        by_cases htm : t ∈ t0 :: ts0
        · by_cases hti : i = t
          · subst hti
            rw [hs] at hu
            obtain rfl := Option.some.inj hu
            have := h3 i htm { s with cell := s.cell.setValue (.bool (argsSayOn rest)) src }
              (by rw [setCell_get, if_pos rfl, hs]; rfl)
              (by rw [setValue_accepted hp]; exact Nat.le_refl _)
            rw [this, setValue_accepted hp]
          · exact h3 t htm u (by rw [setCell_get, if_neg hti, hu]) hp
        · have hti : t = i := by simpa [htm] using ht
          subst hti
          rw [h2 t htm, setCell_get, if_pos rfl]
          rw [hu]
          rw [hs] at hu
          obtain rfl := Option.some.inj hu
          rw [setValue_accepted hp]
          rfl

/-- C70. An option that stands for several boolean options sets every one of them to what the command line
says, takes its word once, and changes nothing else. -/
theorem redirect_sets_all_targets (env : Env) (cs : Container) (n : Nat) (name : Str) (rest : List Str)
    (i : Nat) (s : Setting) (ts : List Nat) (hne : name ≠ []) (hh : name.head? ≠ some 45)
    (hhelp : isHelp name = false) (hf : Found cs name i s) (hk : s.kind = .redirect ts) (hts0 : ts ≠ [])
    (hts : ∀ t ∈ ts, ∃ u, cs[t]? = some u ∧ u.kind = .bool) :
    ∃ cs', parseArgs env cs ((List.replicate (n + 1) 45 ++ name) :: rest) =
        parseArgs env cs' (afterBool rest) ∧
      (∀ j, j ∉ ts → cs'[j]? = cs[j]?) ∧
      (∀ t ∈ ts, valueOf cs' t = some (.bool (argsSayOn rest))) := by
  obtain ⟨cs', h1, h2, h3⟩ := parseRedirect_bools env name .commandLine ts cs rest hts
  refine ⟨cs', ?_, h2, ?_⟩
  · refine parseArgs_option hne hh hhelp hf.1 ?_
    unfold parseAt
    rw [hf.2]
    simp only [hk]
    rw [h1]
    cases ts with
    | nil => exact absurd rfl hts0
    | cons t ts => rfl
  · intro t ht
    obtain ⟨u, hu, _⟩ := hts t ht
    unfold valueOf
    rw [h3 t ht u hu (by cases u.cell.source <;> decide)]
    rfl

/-- "quiet" over two switches (common/settings.cc:726-731, shortened). -/
def quietContainer : Container :=
  [⟨[[112]], .bool, Cell.new (.bool false)⟩, ⟨[[116]], .bool, Cell.new (.bool false)⟩,
   ⟨[[113]], .redirect [0, 1], Cell.new (.bool false)⟩]

example (env : Env) : ∃ cs', parseArgs env quietContainer [[45, 113], [109]] = .ok (cs', [[109]]) ∧
    valueOf cs' 0 = some (.bool true) ∧ valueOf cs' 1 = some (.bool true) := by
  obtain ⟨cs', h1, _, h3⟩ := redirect_sets_all_targets env quietContainer 0 [113] [[109]] 2 _ [0, 1]
    (by decide) (by decide) (by decide) ⟨by decide, rfl⟩ rfl (by decide)
    (by intro t ht; simp at ht; rcases ht with rfl | rfl <;> exact ⟨_, rfl, rfl⟩)
  refine ⟨cs', ?_, h3 0 (by simp), h3 1 (by simp)⟩
  refine h1.trans ?_
  rw [parseArgs.eq_def]
  rfl

/-! ## C71: enumerated options -/

/-- C71 fails: an enumerated option also takes any integer, declared or not: `-f 7` makes the option with the
values 0 and 1 hold 7. -/
theorem enum_takes_undeclared_value (env : Env) (h : ∀ l, env.same l [55] = false) :
    ∃ cs', parseArgs env [⟨[[102]], .enum [([108], 0), ([97], 1)], Cell.new (.int 0)⟩] [[45, 102], [55]] =
      .ok (cs', []) ∧ valueOf cs' 0 = some (.int 7) := by
  have hp : parseAt env [⟨[[102]], .enum [([108], 0), ([97], 1)], Cell.new (.int 0)⟩] 0 [102] .commandLine
      ([[55]] : List Str) =
      .ok (true, [⟨[[102]], .enum [([108], 0), ([97], 1)], ⟨.commandLine, .int 7, .int 0⟩⟩], []) := by
    have h7 : stoi [55] = some 7 := by decide +kernel
    simp only [parseAt, List.getElem?_cons_zero, parsePlain, parseEnum, next_cons, Outcome.ok_bind, findLabel,
      h, Bool.false_eq_true, if_false, h7]
    rfl
  refine ⟨_, (parseArgs_option (n := 0) (name := [102]) (by decide) (by decide) (by decide) (by decide)
    hp).trans (by rw [parseArgs.eq_def]), rfl⟩

/-- C71. An enumerated option given a text ends with the value of the label the text is equivalent to, or the
integer the text spells; anything else is rejected and leaves the option as it was. Missing: the integer is
not checked to be a declared value (`enum_takes_undeclared_value`). -/
theorem enum_value_is_named_partial (env : Env) (cs cs' : Container) (name w : Str) (src : Source) (i : Nat)
    (s : Setting) (labels : List (Str × Int)) (res : Result) (hw : Word w) (hf : Found cs name i s)
    (hk : s.kind = .enum labels) (hp : priority s.cell.source ≤ priority src)
    (h : setSetting env cs name w src = .ok (res, cs')) :
    (res = .none ∧ ∃ v, valueOf cs' i = some (.int v) ∧
      ((∃ l, (l, v) ∈ labels ∧ env.same l w = true) ∨ stoi w = some v)) ∨
    (res = .invalid ∧ valueOf cs' i = valueOf cs i ∧ stoi w = none ∧ ∀ l v, (l, v) ∈ labels → env.same l w = false) := by
  have hlab : ∀ (ls : List (Str × Int)), (∀ v, findLabel env w ls = some v → ∃ l, (l, v) ∈ ls ∧ env.same l w = true) ∧
      (findLabel env w ls = none → ∀ l v, (l, v) ∈ ls → env.same l w = false) := by
    intro ls
    induction ls with
    | nil => simp [findLabel]
    | cons a ls ih =>
      obtain ⟨l, v⟩ := a
      simp only [findLabel]
      split
      · rename_i hsame
        refine ⟨?_, by simp⟩
        intro v' hv'
        simp at hv'
        subst hv'
        exact ⟨l, by simp, hsame⟩
      · rename_i hsame
        refine ⟨?_, ?_⟩
        · intro v' hv'
          obtain ⟨l', hl', hs'⟩ := ih.1 v' hv'
          exact ⟨l', by simp [hl'], hs'⟩
        · intro hn l' v' hm
          simp at hm
          rcases hm with ⟨rfl, rfl⟩ | hm
          · simpa using hsame
          · exact ih.2 hn l' v' hm
  unfold setSetting at h
  rw [hf.1] at h
  simp only at h
  rw [if_neg hw.1] at h
  unfold parseAt at h
  rw [hf.2] at h
  simp only [hk] at h
  simp only [parsePlain, parseEnum, next_word hw, Outcome.ok_bind] at h
  have hget : ∀ c, valueOf (setCell cs i c) i = some c.value := by
    intro c
    unfold valueOf
    rw [setCell_get, if_pos rfl, hf.2]
    rfl
  cases hfl : findLabel env w labels with
  | some v =>
    rw [hfl] at h
    simp only [Outcome.pure_eq, Outcome.ok_bind, if_true, Outcome.ok.injEq, Prod.mk.injEq, Cell.assign,
      setValue_accepted hp] at h
    obtain ⟨rfl, rfl⟩ := h
    exact Or.inl ⟨rfl, v, hget _, Or.inl ((hlab labels).1 v hfl)⟩
  | none =>
    rw [hfl] at h
    cases hst : stoi w with
    | some v =>
      rw [hst] at h
      simp only [Outcome.pure_eq, Outcome.ok_bind, if_true, Outcome.ok.injEq, Prod.mk.injEq, Cell.assign,
        setValue_accepted hp] at h
      obtain ⟨rfl, rfl⟩ := h
      exact Or.inl ⟨rfl, v, hget _, Or.inr rfl⟩
    | none =>
      rw [hst] at h
      simp only [Outcome.pure_eq, Outcome.ok_bind, Bool.false_eq_true, if_false, Outcome.ok.injEq,
        Prod.mk.injEq] at h
      obtain ⟨rfl, rfl⟩ := h
      refine Or.inr ⟨rfl, ?_, rfl, (hlab labels).2 hfl⟩
      rw [hget]
      unfold valueOf
      rw [hf.2]
      rfl

/-! ## C72: no undefined behaviour -/

/-- A token source that never runs into undefined behaviour from a state in `S`. -/
structure Safe {σ : Type} [Tokens σ] (S : σ → Prop) : Prop where
  ne_ub : ∀ st, S st → Tokens.next st ≠ .ub
  keeps : ∀ st r, S st → Tokens.next st = .ok r → S r.2

theorem safe_args : Safe (σ := List Str) (fun _ => True) where
  ne_ub st _ := by cases st <;> simp [next_nil, next_cons]
  keeps _ _ _ _ := trivial

theorem safe_text : Safe (σ := Parser.State) (fun p => 0 ∈ p.rest) where
  ne_ub p h := by
    intro e
    have e' : (do
      let r ← Parser.parseToken 1 {} false p
      pure (if r.1 then some r.2.token else none, r.2)) = Outcome.ub := e
    rw [Outcome.bind_eq_ub] at e'
    rcases e' with e' | ⟨_, _, e'⟩
    · exact Parser.scan_ne_ub h e'
    · cases e'
  keeps p r h e := by
    have e' : (do
      let r ← Parser.parseToken 1 {} false p
      pure (if r.1 then some r.2.token else none, r.2)) = Outcome.ok r := e
    rw [Outcome.bind_eq_ok] at e'
    obtain ⟨⟨f, s⟩, h1, h2⟩ := e'
    simp at h2
    subst h2
    have := Parser.scan_spec h1
    cases f
    · exact Parser.Skipped.keeps_nul (by simpa using this) h
    · exact Parser.Took.keeps_nul (by simpa using this) h

theorem parsePlain_ne_ub {σ : Type} [Tokens σ] {S : σ → Prop} (hS : Safe S) (env : Env) (k : Kind) (name : Str)
    (c : Cell) (src : Source) (st : σ) (h : S st) : parsePlain env k name c src st ≠ .ub := by
  have hbool : ∀ truth, parseBool st truth ≠ .ub := by
    intro truth e
    unfold parseBool at e
    rw [Outcome.bind_eq_ub] at e
    rcases e with e | ⟨p, _, e⟩
    · exact hS.ne_ub st h e
    · repeat' split at e
      all_goals cases e
  have hom : ∀ (k : Kind) om, parseOmitted k c src om st ≠ .ub := by
    intro k om e
    unfold parseOmitted at e
    split at e <;> cases e
  have hnum : ∀ (k : Kind) conv om, parseNumeric k conv om c src st ≠ .ub := by
    intro k conv om e
    unfold parseNumeric at e
    rw [Outcome.bind_eq_ub] at e
    rcases e with e | ⟨p, _, e⟩
    · exact hS.ne_ub st h e
    · repeat' split at e
      all_goals first | (cases e; done) | exact hom _ _ e
  have hstr : ∀ (k : Kind), parseString k c src st ≠ .ub := by
    intro k e
    unfold parseString at e
    rw [Outcome.bind_eq_ub] at e
    rcases e with e | ⟨p, _, e⟩
    · exact hS.ne_ub st h e
    · split at e <;> cases e
  have hco : ∀ st, S st → parseCoord env st ≠ .ub := by
    intro st h e
    unfold parseCoord at e
    rw [Outcome.bind_eq_ub] at e
    rcases e with e | ⟨p, _, e⟩
    · exact hS.ne_ub st h e
    · split at e <;> cases e
  have hco' : ∀ st r, S st → parseCoord env st = .ok r → S r.2 := by
    intro st r h e
    unfold parseCoord at e
    rw [Outcome.bind_eq_ok] at e
    obtain ⟨p, hp, e⟩ := e
    have := hS.keeps st p h hp
    split at e <;> (simp at e; subst e; exact this)
  have hman : ∀ n st, S st → mangleNums env n st ≠ .ub := by
    intro n
    induction n with
    | zero => intro st _ e; cases e
    | succ n ih =>
      intro st h e
      unfold mangleNums at e
      rw [Outcome.bind_eq_ub] at e
      rcases e with e | ⟨p, hp, e⟩
      · exact hS.ne_ub st h e
      · split at e
        · cases e
        · split at e
          · cases e
          · rw [Outcome.bind_eq_ub] at e
            rcases e with e | ⟨q, _, e⟩
            · exact ih _ (hS.keeps st p h hp) e
            · cases e
  intro e
  unfold parsePlain at e
  split at e
  · rw [Outcome.bind_eq_ub] at e
    rcases e with e | ⟨p, _, e⟩
    · exact hbool _ e
    · cases e
  · rw [Outcome.bind_eq_ub] at e
    rcases e with e | ⟨p, _, e⟩
    · exact hbool _ e
    · cases e
  · exact hnum _ _ _ e
  · exact hnum _ _ _ e
  · unfold parseEnum at e
    rw [Outcome.bind_eq_ub] at e
    rcases e with e | ⟨p, _, e⟩
    · exact hS.ne_ub st h e
    · repeat' split at e
      all_goals cases e
  · exact hstr _ e
  · exact hstr _ e
  · unfold parseVec3 at e
    rw [Outcome.bind_eq_ub] at e
    rcases e with e | ⟨x, hx, e⟩
    · exact hco st h e
    · split at e
      · cases e
      · rw [Outcome.bind_eq_ub] at e
        have h1 := hco' st x h hx
        rcases e with e | ⟨y, hy, e⟩
        · exact hco _ h1 e
        · split at e
          · cases e
          · rw [Outcome.bind_eq_ub] at e
            have h2 := hco' _ y h1 hy
            rcases e with e | ⟨z, hz, e⟩
            · exact hco _ h2 e
            · split at e <;> cases e
  · unfold parseMangle at e
    rw [Outcome.bind_eq_ub] at e
    rcases e with e | ⟨p, _, e⟩
    · exact hman 3 st h e
    · cases e
  · cases e
  · cases e

/-- The pointers a container holds lead to its own options. -/
def Linked (cs : Container) : Prop :=
  ∀ s ∈ cs, match s.kind with
    | .redirect ts => ∀ t ∈ ts, t < cs.length
    | .func as => ∀ a ∈ as, a.1 < cs.length
    | _ => True

theorem Linked.evolves {src : Source} {cs cs' : Container} (h : Linked cs) (he : EvolvesAll src cs cs') :
    Linked cs' := by
  intro s' hs'
  obtain ⟨i, hi⟩ := List.mem_iff_getElem?.mp hs'
  have hlt : i < cs.length := by
    rw [← he.1]
    exact (List.getElem?_eq_some_iff.mp hi).1
  obtain ⟨t, ht, _, hk, _⟩ := he.2 i cs[i] (List.getElem?_eq_getElem hlt)
  rw [hi] at ht
  obtain rfl := Option.some.inj ht
  have := h cs[i] (List.getElem_mem hlt)
  rw [hk, he.1]
  exact this

theorem parseRedirect_ne_ub {σ : Type} [Tokens σ] {S : σ → Prop} (hS : Safe S) (env : Env) (name : Str)
    (src : Source) (ts : List Nat) (cs : Container) (st : σ) (h : S st) (hts : ∀ t ∈ ts, t < cs.length) :
    parseRedirect env name src cs ts st ≠ .ub := by
  induction ts generalizing cs st with
  | nil => intro e; cases e
  | cons i ts ih =>
    intro e
    unfold parseRedirect at e
    have hi := hts i (by simp)
    rw [List.getElem?_eq_getElem hi] at e
    simp only at e
    rw [Outcome.bind_eq_ub] at e
    rcases e with e | ⟨p, hp, e⟩
    · exact parsePlain_ne_ub hS env _ _ _ _ _ h e
    · split at e
      · cases ts with
        | nil => cases e
        | cons t ts =>
          simp only [List.isEmpty_cons, Bool.false_eq_true, if_false] at e
          exact ih _ st h (by intro x hx; rw [setCell, List.length_modify]; exact hts x (by simp [hx])) e
      · cases e

theorem runFunc_ne_ub (src : Source) (as : List (Nat × Val)) (cs : Container)
    (has : ∀ a ∈ as, a.1 < cs.length) : runFunc src cs as ≠ .ub := by
  induction as generalizing cs with
  | nil => intro e; cases e
  | cons a as ih =>
    obtain ⟨i, v⟩ := a
    intro e
    unfold runFunc at e
    have hi := has (i, v) (by simp)
    simp only at hi
    rw [List.getElem?_eq_getElem hi] at e
    simp only at e
    exact ih _ (by intro x hx; rw [setCell, List.length_modify]; exact has x (by simp [hx])) e

theorem findSetting_lt {cs : Container} {name : Str} {i : Nat} (h : findSetting cs name = some i) :
    i < cs.length := by
  have hl : ∀ n, lookup cs n = some i → i < cs.length := by
    intro n hn
    unfold lookup at hn
    rw [List.findIdx?_eq_some_iff_findIdx_eq] at hn
    exact hn.1
  induction name with
  | nil => exact hl _ h
  | cons b bs ih =>
    unfold findSetting at h
    split at h
    · exact ih h
    · exact hl _ h

theorem parseAt_ne_ub {σ : Type} [Tokens σ] {S : σ → Prop} (hS : Safe S) (env : Env) (cs : Container) (i : Nat)
    (name : Str) (src : Source) (st : σ) (h : S st) (hl : Linked cs) (hi : i < cs.length) :
    parseAt env cs i name src st ≠ .ub := by
  intro e
  unfold parseAt at e
  have hm := hl cs[i] (List.getElem_mem hi)
  rw [List.getElem?_eq_getElem hi] at e
  simp only at e
  split at e
  · rename_i ts hk
    rw [hk] at hm
    exact parseRedirect_ne_ub hS env name src ts cs st h hm e
  · rename_i as hk
    rw [hk] at hm
    rw [Outcome.bind_eq_ub] at e
    rcases e with e | ⟨p, _, e⟩
    · exact runFunc_ne_ub src as cs hm e
    · cases e
  · rw [Outcome.bind_eq_ub] at e
    rcases e with e | ⟨p, _, e⟩
    · exact parsePlain_ne_ub hS env _ _ _ _ _ h e
    · cases e

/-- C72, command line: a command line in which no argument consists of hyphens only is either accepted or
rejected with an error. Missing: an argument "-" (`stray_hyphen_undefined`). -/
theorem command_line_diagnosed_partial (env : Env) (cs : Container) (args : List Str) (hl : Linked cs)
    (hh : ∀ t ∈ args, t = [] ∨ ∃ b ∈ t, b ≠ 45) : parseArgs env cs args ≠ .ub := by
  fun_induction parseArgs env cs args
  case case1 | case2 | case4 | case5 | case6 | case8 => intro e; cases e
  case case3 t ts h1 name hname =>
    rcases hh t (by simp) with rfl | ⟨b, hb, hb'⟩
    · simp at h1
    · exfalso
      have : ∀ l : Str, l.dropWhile (fun x => decide (x = (45 : UInt8))) = [] → ∀ b ∈ l, b = 45 := by
        intro l
        induction l with
        | nil => simp
        | cons c l ih =>
          intro h b hb
          rw [List.dropWhile_cons] at h
          split at h
          · rename_i hc
            simp at hc
            rcases List.mem_cons.mp hb with rfl | hb
            · exact hc
            · exact ih h b hb
          · cases h
      exact hb' (this t hname b hb)
  case case7 i hf hp =>
    exact absurd hp (parseAt_ne_ub safe_args env _ _ _ _ _ trivial hl (findSetting_lt hf))
  case case9 hp ih =>
    refine ih (hl.evolves (parseAt_evolves hp)) ?_
    intro t ht
    exact hh t (List.mem_cons_of_mem _ ((parseAt_suffix hp).subset ht))

/-- C72 fails: a stray "-" makes the code call `front` on an empty string before it reports the error. -/
theorem stray_hyphen_undefined (env : Env) (cs : Container) (rest : List Str) :
    parseArgs env cs ([45] :: rest) = .ub := by
  rw [parseArgs.eq_def]
  rfl

/-- C72, map keys: giving an option any non-empty text as a map key is either done or rejected. Missing: an
empty text (`empty_key_undefined`). -/
theorem map_key_diagnosed_partial (env : Env) (cs : Container) (name value : Str) (src : Source)
    (hl : Linked cs) (hv : value ≠ []) : setSetting env cs name value src ≠ .ub := by
  intro e
  unfold setSetting at e
  split at e
  · split at e <;> cases e
  · rename_i i hf
    rw [if_neg hv, Outcome.bind_eq_ub] at e
    rcases e with e | ⟨p, _, e⟩
    · exact parseAt_ne_ub safe_text env cs i name src _ (by simp) hl (findSetting_lt hf) e
    · cases e

/-- C72 fails: a known key with an empty value builds a parser over an empty `string_view`. -/
theorem empty_key_undefined (env : Env) (cs : Container) (name : Str) (src : Source) (i : Nat) (s : Setting)
    (hf : Found cs name i s) : setSetting env cs name [] src = .ub := by
  unfold setSetting
  rw [hf.1]
  rfl

example : Linked quietContainer := by
  intro s hs
  simp only [quietContainer, List.mem_cons, List.not_mem_nil, or_false] at hs
  rcases hs with rfl | rfl | rfl
  · trivial
  · trivial
  · intro t ht
    simp at ht
    rcases ht with rfl | rfl <;> decide

end Verif.Settings
