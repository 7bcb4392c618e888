import Verif.Settings.Lemmas
import Mathlib.Data.List.Induction

/-!
Properties of the option system: C42, C43, C44, C68-C72.
-/

namespace Verif.Settings

open Verif

/-! ## C42: sources obey precedence -/

theorem run_latest (d : Val) (h : List (Source × Val)) :
    ∃ pre s post, (Source.default, d) :: h =
        pre ++ (s, (h.foldl (fun c e => c.setValue e.2 e.1) (Cell.new d)).value) :: post ∧
      (∀ e ∈ pre, priority e.1 ≤ priority s) ∧ (∀ e ∈ post, priority e.1 < priority s) ∧
      (h.foldl (fun c e => c.setValue e.2 e.1) (Cell.new d)).source = s := by
  induction h using List.reverseRecOn with
  | nil => exact ⟨[], .default, [], rfl, by simp, by simp, rfl⟩
  | append_singleton h e ih =>
    obtain ⟨pre, s, post, e1, e2, e3, e4⟩ := ih
    obtain ⟨src, v⟩ := e
    rw [List.foldl_append]
    simp only [List.foldl_cons, List.foldl_nil]
    generalize hc : h.foldl (fun c e => c.setValue e.2 e.1) (Cell.new d) = c at *
    unfold Cell.setValue changeSource
    by_cases hle : c.source.rank ≤ src.rank
    · simp only [hle, if_true]
      refine ⟨(Source.default, d) :: h, src, [], by simp, ?_, by simp, rfl⟩
      intro x hx
      rw [e1] at hx
      rw [e4] at hle
      have hle' := priority_le.mpr hle
      rcases List.mem_append.mp hx with hx | hx
      · exact Nat.le_trans (e2 x hx) hle'
      · rcases List.mem_cons.mp hx with rfl | hx
        · exact hle'
        · exact Nat.le_trans (Nat.le_of_lt (e3 x hx)) hle'
    · simp only [hle, if_false]
      refine ⟨pre, s, post ++ [(src, v)], ?_, e2, ?_, e4⟩
      · rw [← List.cons_append, e1]; simp
      · intro x hx
        rcases List.mem_append.mp hx with hx | hx
        · exact e3 x hx
        · simp at hx; subst hx
          rw [priority_lt, ← e4]
          simp only
          omega

/-- C42. After any history of assignments to an option, its value is the latest one from the
highest-priority source; the default counts as the first assignment. -/
theorem latest_of_highest_source (d : Val) (h : List (Source × Val)) :
    Latest ((.default, d) :: h) (h.foldl (fun c e => c.setValue e.2 e.1) (Cell.new d)).value := by
  obtain ⟨pre, s, post, e1, e2, e3, _⟩ := run_latest d h
  exact ⟨pre, s, post, e1, e2, e3⟩

/-- C42. There is only one such value. -/
theorem latest_unique (h : List (Source × Val)) (v w : Val) (hv : Latest h v) (hw : Latest h w) : v = w := by
  obtain ⟨p1, s1, q1, e1, a1, b1⟩ := hv
  obtain ⟨p2, s2, q2, e2, a2, b2⟩ := hw
  rw [e1] at e2
  rw [List.append_eq_append_iff] at e2
  rcases e2 with ⟨m, h1, h2⟩ | ⟨m, h1, h2⟩
  · cases m with
    | nil => simp at h2; exact h2.1.2
    | cons x m =>
      simp only [List.cons_append, List.cons.injEq] at h2
      obtain ⟨rfl, h2⟩ := h2
      have := a2 (s1, v) (by rw [h1]; simp)
      have := b1 (s2, w) (by rw [h2]; simp)
      simp only at *
      omega
  · cases m with
    | nil => simp at h2; exact h2.1.2.symm
    | cons x m =>
      simp only [List.cons_append, List.cons.injEq] at h2
      obtain ⟨rfl, h2⟩ := h2
      have := a1 (s2, w) (by rw [h1]; simp)
      have := b2 (s1, v) (by rw [h2]; simp)
      simp only at *
      omega

/-- C42. A reset forgets everything before it: the history after it decides. -/
theorem reset_restarts (k : Kind) (d : Val) (ops : List CellOp) (ops' : List CellOp) :
    (ops ++ CellOp.reset :: ops').foldl (CellOp.run k) (Cell.new d) =
      ops'.foldl (CellOp.run k) (Cell.new d) := by
  rw [List.foldl_append, List.foldl_cons]
  have : ∀ (l : List CellOp) (c : Cell), (l.foldl (CellOp.run k) c).dflt = c.dflt := by
    intro l
    induction l with
    | nil => intro c; rfl
    | cons o l ih =>
      intro c
      rw [List.foldl_cons, ih]
      cases o with
      | assign s v => exact assign_dflt k c v s
      | reset => rfl
  congr 1
  simp only [CellOp.run, Cell.reset]
  rw [this]
  rfl

/-- C42, for whole containers. Whatever happens from sources of lower priority (map keys, whole entities,
assignments by the program), an option keeps the value a higher-priority source gave it. -/
theorem higher_source_prevails (env : Env) (cs cs' : Container) (ops : List Op) (i : Nat) (s : Setting)
    (hrun : runOps env cs ops = .ok cs') (hs : cs[i]? = some s)
    (hlow : ∀ o ∈ ops, ∃ src, o.source = some src ∧ priority src < priority s.cell.source) :
    ∃ s', cs'[i]? = some s' ∧ s'.cell = s.cell ∧ s'.names = s.names := by
  induction ops generalizing cs s with
  | nil => simp [runOps] at hrun; subst hrun; exact ⟨s, hs, rfl, rfl⟩
  | cons o os ih =>
    unfold runOps at hrun
    rw [Outcome.bind_eq_ok] at hrun
    obtain ⟨c1, h1, h2⟩ := hrun
    obtain ⟨src, hsrc, hlt⟩ := hlow o (by simp)
    obtain ⟨t, ht, hn, hk, vs, hc⟩ := (Op.evolves hsrc h1).2 i s hs
    have hcell : t.cell = s.cell := by
      rw [hc]
      clear hc
      induction vs with
      | nil => rfl
      | cons v vs ihv =>
        rw [List.foldl_cons, assign_of_lt (priority_lt.mp hlt)]
        exact ihv
    obtain ⟨s', e1, e2, e3⟩ := ih c1 t h2 ht (fun o ho => by rw [hcell]; exact hlow o (by simp [ho]))
    exact ⟨s', e1, e2.trans hcell, e3.trans hn⟩

/-! ## C43: numeric options stay in range -/

/-- C43, range. After any history of map keys, entities, command lines, assignments and resets every integer
option is inside its declared range. -/
theorem int_options_in_range (env : Env) (cs cs' : Container) (ops : List Op)
    (hrun : runOps env cs ops = .ok cs')
    (hwf : ∀ s ∈ cs, ∀ lo hi om, s.kind = .int lo hi om → lo ≤ hi)
    (hin : ∀ s ∈ cs, IntInRange s) : ∀ s ∈ cs', IntInRange s := by
  have key := runOps_invariant (env := env)
    (fun s => (∀ lo hi om, s.kind = .int lo hi om → lo ≤ hi) ∧ IntInRange s) ?_ ?_ hrun
    (fun s hs => ⟨hwf s hs, hin s hs⟩)
  · exact fun s hs => (key s hs).2
  · rintro ⟨n, k, c⟩ v src ⟨h1, h2⟩
    refine ⟨h1, ?_⟩
    unfold IntInRange at *
    cases k <;> simp only at *
    rename_i lo hi om
    have hle := h1 lo hi om rfl
    rw [assign_dflt]
    refine ⟨?_, h2.2⟩
    cases v <;> simp only [Cell.assign] <;> first | exact h2.1 | skip
    unfold Cell.setValue
    split
    · refine ⟨_, rfl, ?_⟩
      rw [clampBy_int _ _ _ hle]
      unfold clampInt
      omega
    · exact h2.1
  · rintro ⟨n, k, c⟩ ⟨h1, h2⟩
    refine ⟨h1, ?_⟩
    unfold IntInRange at *
    cases k <;> simp only [Cell.reset] at *
    exact ⟨h2.2, h2.2⟩

theorem num_lt_irrefl (x : Num) : Num.lt x x = false := by
  cases x <;> simp [Num.lt]

/-- C43, range, scalars: as long as no text reads as NaN and no program value is NaN, every scalar option
stays inside its range over any history. Missing: `std::stod` accepts "nan" (`nan_escapes_the_range`). -/
theorem scalar_options_in_range_partial (env : Env) (cs cs' : Container) (ops : List Op)
    (hrun : runOps env cs ops = .ok cs')
    (hwf : ∀ s ∈ cs, ∀ lo hi om, s.kind = .scalar lo hi om →
      Num.lt hi lo = false ∧ lo ≠ .nan ∧ hi ≠ .nan)
    (hin : ∀ s ∈ cs, ScalarInRange s)
    (hnan : ∀ s ∈ cs', ∀ lo hi om, s.kind = .scalar lo hi om → s.cell.value ≠ .num .nan) :
    ∀ s ∈ cs', ScalarInRange s := by
  have key := runOps_invariant (env := env)
    (fun s => (∀ lo hi om, s.kind = .scalar lo hi om → Num.lt hi lo = false ∧ lo ≠ .nan ∧ hi ≠ .nan) ∧
      match s.kind with
      | .scalar lo hi _ =>
        (∃ x, s.cell.value = .num x ∧ (x = .nan ∨ Between lo x hi)) ∧
          ∃ x, s.cell.dflt = .num x ∧ Between lo x hi
      | _ => True) ?_ ?_ hrun
    (fun s hs => ⟨hwf s hs, ?_⟩)
  · intro s hs
    have h := (key s hs).2
    have hn := hnan s hs
    obtain ⟨n, k, c⟩ := s
    unfold ScalarInRange
    cases k <;> simp only at *
    obtain ⟨⟨x, hx, h1⟩, h2⟩ := h
    refine ⟨⟨x, hx, ?_⟩, h2⟩
    rcases h1 with rfl | h1
    · exact absurd hx (hn _ _ _ rfl)
    · exact h1
  · rintro ⟨n, k, c⟩ v src ⟨h1, h2⟩
    refine ⟨h1, ?_⟩
    cases k <;> simp only at *
    rename_i lo hi om
    obtain ⟨hle, hlo, hhi⟩ := h1 lo hi om rfl
    rw [assign_dflt]
    refine ⟨?_, h2.2⟩
    cases v <;> simp only [Cell.assign] <;> first | exact h2.1 | skip
    rename_i x
    unfold Cell.setValue
    split
    · refine ⟨_, rfl, ?_⟩
      unfold clampBy
      split
      · exact Or.inr ⟨hlo, num_lt_irrefl _, hle⟩
      · split
        · exact Or.inr ⟨hhi, hle, num_lt_irrefl _⟩
        · by_cases hx : x = .nan
          · exact Or.inl hx
          · rename_i h3 h4
            exact Or.inr ⟨hx, by simpa using h3, by simpa using h4⟩
    · exact h2.1
  · rintro ⟨n, k, c⟩ ⟨h1, h2⟩
    refine ⟨h1, ?_⟩
    cases k <;> simp only [Cell.reset] at *
    obtain ⟨x, hx, hb⟩ := h2.2
    exact ⟨⟨x, hx, Or.inr hb⟩, x, hx, hb⟩
  · have h := hin s hs
    obtain ⟨n, k, c⟩ := s
    unfold ScalarInRange at h
    cases k <;> simp only at *
    obtain ⟨⟨x, hx, hb⟩, h2⟩ := h
    exact ⟨⟨x, hx, Or.inr hb⟩, h2⟩

theorem stoull_digits {ds : List Nat} (hd : ∀ d ∈ ds, d < 10) (hne : ds ≠ []) (hv : decValue ds < 2 ^ 64) :
    stoull (digitText ds) = some (decValue ds) := by
  unfold stoull
  rw [scanNumber_digits hd hne]
  simp only [Bool.false_eq_true, if_false]
  rw [if_neg (by omega)]

theorem castInt32_small {n : Nat} (h : n < 2 ^ 31) : castInt32 n = n := by
  unfold castInt32
  rw [Int.bmod_def]
  have : ((n : Int) % (2 ^ 32 : Nat)) = n := by omega
  rw [this]
  split <;> omega

theorem parseAt_int {σ : Type} [Tokens σ] (env : Env) (cs : Container) (i : Nat) (s : Setting) (name : Str)
    (lo hi : Int) (om : Option Int) (src : Source) (st st' : σ) (ds : List Nat)
    (hs : cs[i]? = some s) (hk : s.kind = .int lo hi om) (hlo : lo ≤ hi)
    (hd : ∀ d ∈ ds, d < 10) (hne : ds ≠ []) (hv : decValue ds < 2 ^ 31)
    (hp : priority s.cell.source ≤ priority src)
    (hn : Tokens.next st = .ok (some (digitText ds), st')) :
    parseAt env cs i name src st = .ok (true, setCell cs i { s.cell with
      source := src, value := .int (clampInt (decValue ds) lo hi) }, st') := by
  unfold parseAt
  rw [hs]
  simp only
  split
  · rename_i h; rw [hk] at h; cases h
  · rename_i h; rw [hk] at h; cases h
  · rw [hk]
    simp only [parsePlain, parseNumeric, hn, Outcome.ok_bind]
    rw [stoull_digits hd hne (by omega)]
    simp only [Option.map_some, Outcome.pure_eq, Outcome.ok_bind, castInt32_small hv, Cell.assign,
      clampBy_int _ _ _ hlo]
    unfold Cell.setValue changeSource
    rw [if_pos (priority_le.mp hp)]

/-- C43, value, for map keys: an integer option given a decimal number below 2^31 takes that number clamped to
its range. Missing: larger numbers (`big_number_not_clamped`). -/
theorem int_key_is_clamped_partial (env : Env) (cs : Container) (i : Nat) (s : Setting) (name : Str)
    (lo hi : Int) (om : Option Int) (src : Source) (ds : List Nat)
    (hf : Found cs name i s) (hk : s.kind = .int lo hi om) (hlo : lo ≤ hi)
    (hd : ∀ d ∈ ds, d < 10) (hne : ds ≠ []) (hv : decValue ds < 2 ^ 31)
    (hp : priority s.cell.source ≤ priority src) :
    setSetting env cs name (digitText ds) src = .ok (.none, setCell cs i { s.cell with
      source := src, value := .int (clampInt (decValue ds) lo hi) }) := by
  unfold setSetting
  rw [hf.1]
  simp only
  rw [if_neg (digitText_word hd hne).1,
    parseAt_int env cs i s name lo hi om src _ _ ds hf.2 hk hlo hd hne hv hp
      (next_word (digitText_word hd hne))]
  rfl

example : setSetting ⟨fun _ => none, fun _ _ => false⟩
    [⟨[[120]], .int 0 100 none, Cell.new (.int 5)⟩] [95, 120] [50, 53, 48] .map =
    .ok (.none, setCell [⟨[[120]], .int 0 100 none, Cell.new (.int 5)⟩] 0
      ⟨.map, .int 100, .int 5⟩) := by
  have := int_key_is_clamped_partial ⟨fun _ => none, fun _ _ => false⟩
    [⟨[[120]], .int 0 100 none, Cell.new (.int 5)⟩] 0 _ [95, 120] 0 100 none .map [2, 5, 0]
    ⟨by decide, rfl⟩ rfl (by decide) (by decide) (by decide) (by decide) (by decide)
  exact this

/-- C43 fails: the number is truncated to 32 bits before it is clamped, so "4294967297" given to an option
with range [0, 100] makes it 1, not 100. -/
theorem big_number_not_clamped :
    ∃ cs', setSetting ⟨fun _ => none, fun _ _ => false⟩
        [⟨[[120]], .int 0 100 none, Cell.new (.int 5)⟩] [120]
        [52, 50, 57, 52, 57, 54, 55, 50, 57, 55] .map = .ok (.none, cs') ∧
      valueOf cs' 0 = some (.int 1) ∧ clampInt 4294967297 0 100 = 100 := by
  refine ⟨setCell [⟨[[120]], .int 0 100 none, Cell.new (.int 5)⟩] 0 ⟨.map, .int 1, .int 5⟩, ?_, rfl, by decide⟩
  unfold setSetting
  have hf : findSetting [⟨[[120]], .int 0 100 none, Cell.new (.int 5)⟩] [120] = some 0 := by decide
  rw [hf]
  simp only
  rw [if_neg (by decide)]
  have hw : Word ([52, 50, 57, 52, 57, 54, 55, 50, 57, 55] : Str) :=
    ⟨by decide, by decide, by decide, by decide, by decide⟩
  have hv : stoull [52, 50, 57, 52, 57, 54, 55, 50, 57, 55] = some 4294967297 := by decide +kernel
  have hc : castInt32 4294967297 = 1 := by decide +kernel
  simp only [parseAt, List.getElem?_cons_zero, parsePlain, parseNumeric, next_word hw, Outcome.ok_bind, hv,
    Option.map_some, hc]
  rfl

/-! ## C44: boolean options -/

theorem parseArgs_option {env : Env} {cs cs' : Container} {n : Nat} {name : Str} {ts ts' : List Str} {i : Nat}
    (hne : name ≠ []) (hh : name.head? ≠ some 45) (hhelp : isHelp name = false)
    (hf : findSetting cs name = some i)
    (hp : parseAt env cs i name .commandLine ts = .ok (true, cs', ts')) :
    parseArgs env cs ((List.replicate (n + 1) 45 ++ name) :: ts) = parseArgs env cs' ts' := by
  have hdrop : (List.replicate (n + 1) (45 : UInt8) ++ name).dropWhile (fun x => decide (x = 45)) = name := by
    generalize n + 1 = m
    induction m with
    | zero =>
      cases name with
      | nil => rfl
      | cons b bs =>
        simp at hh
        simp [hh]
    | succ m ih => simp [List.replicate_succ, ih]
  rw [parseArgs.eq_def]
  have h1 : (List.replicate (n + 1) (45 : UInt8) ++ name).head? = some 45 := by
    simp [List.replicate_succ]
  simp only [h1, ne_eq, not_true_eq_false, if_false]
  rw [hdrop]
  simp only [hne, if_false, hhelp, Bool.false_eq_true, hf]
  split
  · rename_i hq; rw [hp] at hq; cases hq
  · rename_i hq; rw [hp] at hq; cases hq
  · rename_i hq; rw [hp] at hq; cases hq
  · rename_i hq; rw [hp] at hq
    simp only [Outcome.ok.injEq, Prod.mk.injEq, true_and] at hq
    obtain ⟨rfl, rfl⟩ := hq
    rfl

/-- The scalar option `tex_saturation_boost` with range [0, 1] (common/settings.cc:744). -/
def boost : Setting :=
  ⟨[[98]], .scalar (.fin 0) (.fin 1) none, Cell.new (.num (.fin 0))⟩

/-- C43 fails for scalars: `-b nan` leaves the option at NaN, outside its range [0, 1]. -/
theorem nan_escapes_the_range (env : Env) (h : env.stod [110, 97, 110] = some .nan) :
    ∃ cs', parseArgs env [boost] [[45, 98], [110, 97, 110]] = .ok (cs', []) ∧
      valueOf cs' 0 = some (.num .nan) ∧ ¬ Between (.fin 0) .nan (.fin 1) := by
  refine ⟨[⟨[[98]], .scalar (.fin 0) (.fin 1) none, ⟨.commandLine, .num .nan, .num (.fin 0)⟩⟩], ?_, rfl, ?_⟩
  · have hp : parseAt env [boost] 0 [98] .commandLine ([[110, 97, 110]] : List Str) =
        .ok (true, [⟨[[98]], .scalar (.fin 0) (.fin 1) none,
          ⟨.commandLine, .num .nan, .num (.fin 0)⟩⟩], []) := by
      simp only [parseAt, boost, List.getElem?_cons_zero, parsePlain, parseNumeric, next_cons,
        Outcome.ok_bind, h, Option.map_some]
      rfl
    refine (parseArgs_option (n := 0) (name := [98]) (by decide) (by decide) (by decide) (by decide)
      hp).trans ?_
    rw [parseArgs.eq_def]
  · intro hb; exact hb.1 rfl

theorem parseBool_args (rest : List Str) (truth : Bool) :
    parseBool rest truth = .ok (if argsSayOn rest then truth else !truth, afterBool rest) := by
  cases rest with
  | nil => rfl
  | cons w ws =>
    simp only [parseBool, Tokens.next, Outcome.ok_bind, argsSayOn, afterBool]
    by_cases h1 : w = [49]
    · subst h1; simp [isBoolWord, stoi, scanNumber, isSpace, isDigit, digits, saysOn]
    · by_cases h2 : w = [48]
      · subst h2; simp [isBoolWord, stoi, scanNumber, isSpace, isDigit, digits, saysOn]
      · by_cases h3 : w = [45, 49]
        · subst h3; simp [isBoolWord, stoi, scanNumber, isSpace, isDigit, digits, saysOn]
        · simp [isBoolWord, h1, h2, h3, saysOn]

theorem parseBool_word {w : Str} (hw : Word w) (truth : Bool) :
    ∃ st', parseBool (⟨w ++ [0], 1, [], false⟩ : Parser.State) truth =
      .ok (if saysOn w then truth else !truth, st') := by
  unfold parseBool
  rw [next_word hw]
  simp only [Outcome.ok_bind]
  by_cases h1 : w = [49]
  · subst h1; simp [isBoolWord, stoi, scanNumber, isSpace, isDigit, digits, saysOn]
  · by_cases h2 : w = [48]
    · subst h2; simp [isBoolWord, stoi, scanNumber, isSpace, isDigit, digits, saysOn]
    · by_cases h3 : w = [45, 49]
      · subst h3; simp [isBoolWord, stoi, scanNumber, isSpace, isDigit, digits, saysOn]
      · simp [isBoolWord, h1, h2, h3, saysOn]

theorem setValue_cmdline (c : Cell) (v : Val) :
    c.setValue v .commandLine = { c with source := .commandLine, value := v } := by
  unfold Cell.setValue changeSource
  rw [if_pos]
  cases c.source <;> decide

theorem setValue_accepted {c : Cell} {s : Source} (h : priority c.source ≤ priority s) (v : Val) :
    c.setValue v s = { c with source := s, value := v } := by
  unfold Cell.setValue changeSource
  rw [if_pos (priority_le.mp h)]

/-- C44, command line. A boolean option `-name` (any number of hyphens) is switched on, or off when "0" or
"-1" follows; a following "1", "0" or "-1" is used up, anything else is left for the rest of the command
line. -/
theorem bool_on_command_line (env : Env) (cs : Container) (n : Nat) (name : Str) (rest : List Str)
    (i : Nat) (s : Setting) (hne : name ≠ []) (hh : name.head? ≠ some 45) (hhelp : isHelp name = false)
    (hf : Found cs name i s) (hk : s.kind = .bool) :
    parseArgs env cs ((List.replicate (n + 1) 45 ++ name) :: rest) =
      parseArgs env (setCell cs i { s.cell with source := .commandLine, value := .bool (argsSayOn rest) })
        (afterBool rest) := by
  refine parseArgs_option hne hh hhelp hf.1 ?_
  unfold parseAt
  rw [hf.2]
  simp only
  split
  · rename_i h; rw [hk] at h; cases h
  · rename_i h; rw [hk] at h; cases h
  · rw [hk]
    simp only [parsePlain, parseBool_args, Outcome.ok_bind, Outcome.pure_eq, Cell.assign, setValue_cmdline]
    cases argsSayOn rest <;> rfl

/-- C44, command line. An invertible option behaves the same under its own name and the other way round
under the name with "no" in front. -/
theorem invertible_on_command_line (env : Env) (cs : Container) (n : Nat) (name : Str) (rest : List Str)
    (i : Nat) (s : Setting) (neg : Bool) (hne : name ≠ []) (hh : name.head? ≠ some 45)
    (hno : name.take 2 ≠ [110, 111])
    (hhelp : isHelp ((if neg then [110, 111] else []) ++ name) = false)
    (hf : Found cs ((if neg then [110, 111] else []) ++ name) i s) (hk : s.kind = .invertible) :
    parseArgs env cs ((List.replicate (n + 1) 45 ++ ((if neg then [110, 111] else []) ++ name)) :: rest) =
      parseArgs env (setCell cs i { s.cell with
          source := .commandLine, value := .bool (argsSayOn rest != neg) })
        (afterBool rest) := by
  refine parseArgs_option ?_ ?_ hhelp hf.1 ?_
  · cases neg <;> simp [hne]
  · cases neg <;> simp [hh]
  unfold parseAt
  rw [hf.2]
  simp only
  split
  · rename_i h; rw [hk] at h; cases h
  · rename_i h; rw [hk] at h; cases h
  · rw [hk]
    have hst : startsWithNo ((if neg then [110, 111] else []) ++ name) = neg := by
      unfold startsWithNo
      cases neg
      · simpa using hno
      · simp
    simp only [parsePlain, hst, parseBool_args, Outcome.ok_bind, Outcome.pure_eq, Cell.assign,
      setValue_cmdline]
    cases argsSayOn rest <;> cases neg <;> rfl

theorem findSetting_underscores (cs : Container) (n : Nat) (name : Str) :
    findSetting cs (List.replicate n 95 ++ name) = findSetting cs name := by
  induction n with
  | zero => rfl
  | succ n ih =>
    rw [List.replicate_succ, List.cons_append, findSetting]
    simp [ih]

/-- C44, map keys. A boolean option given as a key (any number of leading underscores) is switched on by
every word other than "0" and "-1", which switch it off. -/
theorem bool_as_map_key (env : Env) (cs : Container) (n : Nat) (name w : Str) (src : Source) (i : Nat)
    (s : Setting) (hw : Word w) (hf : Found cs name i s) (hk : s.kind = .bool)
    (hp : priority s.cell.source ≤ priority src) :
    setSetting env cs (List.replicate n 95 ++ name) w src =
      .ok (.none, setCell cs i { s.cell with source := src, value := .bool (saysOn w) }) := by
  unfold setSetting
  rw [findSetting_underscores, hf.1]
  simp only
  rw [if_neg hw.1]
  obtain ⟨st', hb⟩ := parseBool_word hw true
  unfold parseAt
  rw [hf.2]
  simp only
  split
  · rename_i h; rw [hk] at h; cases h
  · rename_i h; rw [hk] at h; cases h
  · rw [hk]
    simp only [parsePlain, hb, Outcome.ok_bind, Outcome.pure_eq, Cell.assign, setValue_accepted hp]
    cases saysOn w <;> rfl

/-- C44, map keys, invertible options: as on the command line, as long as a name with "no" in front is
written without leading underscores. Missing: `_noname` (`underscore_no_is_not_inverted`). -/
theorem invertible_as_map_key_partial (env : Env) (cs : Container) (n : Nat) (name w : Str) (src : Source)
    (i : Nat) (s : Setting) (neg : Bool) (hw : Word w) (hno : name.take 2 ≠ [110, 111])
    (hn : neg = true → n = 0)
    (hf : Found cs ((if neg then [110, 111] else []) ++ name) i s) (hk : s.kind = .invertible)
    (hp : priority s.cell.source ≤ priority src) :
    setSetting env cs (List.replicate n 95 ++ ((if neg then [110, 111] else []) ++ name)) w src =
      .ok (.none, setCell cs i { s.cell with source := src, value := .bool (saysOn w != neg) }) := by
  unfold setSetting
  rw [findSetting_underscores, hf.1]
  simp only
  rw [if_neg hw.1]
  have hst : startsWithNo (List.replicate n 95 ++ ((if neg then [110, 111] else []) ++ name)) = neg := by
    unfold startsWithNo
    cases neg
    · cases n with
      | zero => simpa using hno
      | succ n => simp [List.replicate_succ]
    · rw [hn rfl]
      simp
  obtain ⟨st', hb⟩ := parseBool_word hw (if neg then false else true)
  unfold parseAt
  rw [hf.2]
  simp only
  split
  · rename_i h; rw [hk] at h; cases h
  · rename_i h; rw [hk] at h; cases h
  · rw [hk]
    simp only [parsePlain, hst, hb, Outcome.ok_bind, Outcome.pure_eq, Cell.assign, setValue_accepted hp]
    cases saysOn w <;> cases neg <;> rfl

/-- The invertible option "log" (common/settings.cc:724). -/
def logOption : Setting :=
  ⟨registeredNames .invertible [[108, 111, 103]], .invertible, Cell.new (.bool true)⟩

/-- C44 fails: the map key "_nolog" with the value "1" leaves the option on, and with the value "0" switches
it off, the opposite of what the key says. -/
theorem underscore_no_is_not_inverted (env : Env) :
    setSetting env [logOption] [95, 110, 111, 108, 111, 103] [49] .map =
        .ok (.none, setCell [logOption] 0 ⟨.map, .bool true, .bool true⟩) ∧
      setSetting env [logOption] [95, 110, 111, 108, 111, 103] [48] .map =
        .ok (.none, setCell [logOption] 0 ⟨.map, .bool false, .bool true⟩) := by
  constructor
  · have hw : Word [49] := ⟨by decide, by decide, by decide, by decide, by decide⟩
    unfold setSetting
    have hf : findSetting [logOption] [95, 110, 111, 108, 111, 103] = some 0 := by decide
    rw [hf]
    obtain ⟨st', hb⟩ := parseBool_word hw true
    simp only [parseAt, logOption, List.getElem?_cons_zero, parsePlain]
    have h0 : startsWithNo [95, 110, 111, 108, 111, 103] = false := by decide
    simp only [h0, Bool.false_eq_true, if_false, hb, Outcome.ok_bind]
    rfl
  · have hw : Word [48] := ⟨by decide, by decide, by decide, by decide, by decide⟩
    unfold setSetting
    have hf : findSetting [logOption] [95, 110, 111, 108, 111, 103] = some 0 := by decide
    rw [hf]
    obtain ⟨st', hb⟩ := parseBool_word hw true
    simp only [parseAt, logOption, List.getElem?_cons_zero, parsePlain]
    have h0 : startsWithNo [95, 110, 111, 108, 111, 103] = false := by decide
    simp only [h0, Bool.false_eq_true, if_false, hb, Outcome.ok_bind]
    rfl

example : ∃ i s, Found [boost, logOption] [110, 111, 108, 111, 103] i s ∧ s.kind = .invertible :=
  ⟨1, logOption, ⟨by decide, rfl⟩, rfl⟩

example (env : Env) : parseArgs env [logOption] [[45, 45, 110, 111, 108, 111, 103], [48], [97]] =
    .ok (setCell [logOption] 0 ⟨.commandLine, .bool true, .bool true⟩, [[97]]) := by
  have h := invertible_on_command_line env [logOption] 1 [108, 111, 103] [[48], [97]] 0 logOption true
    (by decide) (by decide) (by decide) (by decide) ⟨by decide, rfl⟩ rfl
  refine h.trans ?_
  rw [parseArgs.eq_def]
  rfl

/-! ## C68: the rest of a command line -/

/-- C68. When the command line is accepted, what is handed back is a suffix of the arguments and does not
start with an option. -/
theorem remainder_is_suffix (env : Env) (cs cs' : Container) (args rem : List Str)
    (h : parseArgs env cs args = .ok (cs', rem)) :
    (∃ used, args = used ++ rem) ∧ (∀ t ts, rem = t :: ts → t.head? ≠ some 45) := by
  have hle : rem <:+ args := by
    fun_induction parseArgs env cs args
    case case1 => simp at h; simp [h.2]
    case case2 => simp at h; simp [← h.2]
    case case3 | case4 | case5 | case6 | case7 | case8 => simp at h
    case case9 hp ih => exact (ih h).trans ((parseAt_suffix hp).trans (List.suffix_cons _ _))
  refine ⟨?_, ?_⟩
  · obtain ⟨u, hu⟩ := hle
    exact ⟨u, hu.symm⟩
  clear hle
  fun_induction parseArgs env cs args
  case case1 => simp at h; simp [h.2]
  case case2 hx =>
    simp at h
    obtain ⟨rfl, rfl⟩ := h
    intro t ts e
    obtain ⟨rfl, rfl⟩ := List.cons.inj e
    exact hx
  case case3 | case4 | case5 | case6 | case7 | case8 => simp at h
  case case9 hp ih => exact ih h

end Verif.Settings
