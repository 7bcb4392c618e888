import Verif.Settings.Spec
import Verif.Parser.Lemmas

namespace Verif.Settings

open Verif

theorem priority_le {a b : Source} : priority a ≤ priority b ↔ a.rank ≤ b.rank := by
  cases a <;> cases b <;> decide

theorem priority_lt {a b : Source} : priority a < priority b ↔ a.rank < b.rank := by
  cases a <;> cases b <;> decide

theorem next_nil : Tokens.next ([] : List Str) = .ok (none, []) := rfl

theorem next_cons (t : Str) (ts : List Str) : Tokens.next (t :: ts) = .ok (some t, ts) := rfl

/-! ### One option -/

theorem setValue_source (c : Cell) (v : Val) (s : Source) :
    (c.setValue v s).source.rank = max c.source.rank s.rank := by
  unfold Cell.setValue changeSource
  by_cases h : c.source.rank ≤ s.rank
  · simp [h]
  · simp [h]; omega

theorem setValue_dflt (c : Cell) (v : Val) (s : Source) : (c.setValue v s).dflt = c.dflt := by
  unfold Cell.setValue
  split <;> rfl

theorem setValue_of_lt {c : Cell} {s : Source} (h : s.rank < c.source.rank) (v : Val) :
    c.setValue v s = c := by
  unfold Cell.setValue changeSource
  simp [Nat.not_le.mpr h]

theorem addValue_of_lt {c : Cell} {s : Source} (h : s.rank < c.source.rank) (t : Str) :
    c.addValue t s = c := by
  unfold Cell.addValue changeSource
  simp [Nat.not_le.mpr h]

theorem addValue_dflt (c : Cell) (t : Str) (s : Source) : (c.addValue t s).dflt = c.dflt := by
  unfold Cell.addValue
  split
  · split <;> rfl
  · rfl

theorem assign_of_lt {c : Cell} {s : Source} (h : s.rank < c.source.rank) (k : Kind) (v : Val) :
    c.assign k v s = c := by
  unfold Cell.assign
  split <;> first | exact setValue_of_lt h _ | exact addValue_of_lt h _ | rfl

theorem assign_dflt (k : Kind) (c : Cell) (v : Val) (s : Source) : (c.assign k v s).dflt = c.dflt := by
  unfold Cell.assign
  split <;> first | exact setValue_dflt _ _ _ | exact addValue_dflt _ _ _ | rfl

/-! ### What an event can do to a container -/

/-- Same names and kinds, and every value part changed by assignments from `src` only. -/
def Evolves (src : Source) (s s' : Setting) : Prop :=
  s'.names = s.names ∧ s'.kind = s.kind ∧
    ∃ vs : List Val, s'.cell = vs.foldl (fun c v => c.assign s.kind v src) s.cell

theorem Evolves.refl (src : Source) (s : Setting) : Evolves src s s := ⟨rfl, rfl, [], rfl⟩

theorem Evolves.trans {src : Source} {a b c : Setting} (h1 : Evolves src a b) (h2 : Evolves src b c) :
    Evolves src a c := by
  obtain ⟨n1, k1, v1, e1⟩ := h1
  obtain ⟨n2, k2, v2, e2⟩ := h2
  refine ⟨n2.trans n1, k2.trans k1, v1 ++ v2, ?_⟩
  rw [List.foldl_append, ← e1, e2, k1]

/-- Pointwise `Evolves`. -/
def EvolvesAll (src : Source) (cs cs' : Container) : Prop :=
  cs'.length = cs.length ∧ ∀ (i : Nat) (s : Setting), cs[i]? = some s → ∃ s', cs'[i]? = some s' ∧ Evolves src s s'

theorem EvolvesAll.refl (src : Source) (cs : Container) : EvolvesAll src cs cs :=
  ⟨rfl, fun _ s h => ⟨s, h, Evolves.refl src s⟩⟩

theorem EvolvesAll.trans {src : Source} {a b c : Container} (h1 : EvolvesAll src a b)
    (h2 : EvolvesAll src b c) : EvolvesAll src a c := by
  refine ⟨h2.1.trans h1.1, fun i s h => ?_⟩
  obtain ⟨s1, e1, v1⟩ := h1.2 i s h
  obtain ⟨s2, e2, v2⟩ := h2.2 i s1 e1
  exact ⟨s2, e2, v1.trans v2⟩

theorem setCell_get (cs : Container) (i j : Nat) (c : Cell) :
    (setCell cs i c)[j]? = if i = j then (cs[j]?).map fun s => { s with cell := c } else cs[j]? := by
  unfold setCell
  rw [List.getElem?_modify]
  by_cases h : i = j
  · simp [h]
  · simp [h]

theorem setCell_evolves {src : Source} {cs : Container} {i : Nat} {s : Setting} {c : Cell}
    (hs : cs[i]? = some s)
    (hc : ∃ vs : List Val, c = vs.foldl (fun c v => c.assign s.kind v src) s.cell) :
    EvolvesAll src cs (setCell cs i c) := by
  refine ⟨by simp [setCell], fun j t ht => ?_⟩
  rw [setCell_get]
  by_cases h : i = j
  · subst h
    rw [hs] at ht
    obtain rfl := Option.some.inj ht
    rw [hs]
    simp only [if_true, Option.map_some]
    exact ⟨_, rfl, rfl, rfl, hc⟩
  · rw [if_neg h]
    exact ⟨t, ht, Evolves.refl src t⟩

theorem one_assign (k : Kind) (c : Cell) (v : Val) (src : Source) :
    ∃ vs : List Val, c.assign k v src = vs.foldl (fun c v => c.assign k v src) c := ⟨[v], rfl⟩

theorem parseOmitted_evolves {σ : Type} {k : Kind} {c : Cell} {src : Source} {om : Option Val} {st : σ}
    {r : Bool × Cell × σ} (h : parseOmitted k c src om st = .ok r) :
    ∃ vs : List Val, r.2.1 = vs.foldl (fun c v => c.assign k v src) c := by
  unfold parseOmitted at h
  split at h
  · simp at h; subst h; (dsimp only; exact one_assign _ _ _ _)
  · simp at h; subst h; exact ⟨[], rfl⟩

theorem parseNumeric_evolves {σ : Type} [Tokens σ] {k : Kind} {conv : Str → Option Val}
    {om : Option Val} {c : Cell} {src : Source} {st : σ} {r : Bool × Cell × σ}
    (h : parseNumeric k conv om c src st = .ok r) :
    ∃ vs : List Val, r.2.1 = vs.foldl (fun c v => c.assign k v src) c := by
  unfold parseNumeric at h
  rw [Outcome.bind_eq_ok] at h
  obtain ⟨p, _, h⟩ := h
  split at h
  · split at h
    · simp at h; subst h; (dsimp only; exact one_assign _ _ _ _)
    · exact parseOmitted_evolves h
  · exact parseOmitted_evolves h

theorem parsePlain_evolves {σ : Type} [Tokens σ] {env : Env} {k : Kind} {name : Str} {c : Cell}
    {src : Source} {st : σ} {r : Bool × Cell × σ} (h : parsePlain env k name c src st = .ok r) :
    ∃ vs : List Val, r.2.1 = vs.foldl (fun c v => c.assign k v src) c := by
  unfold parsePlain at h
  split at h
  · rw [Outcome.bind_eq_ok] at h
    obtain ⟨p, _, h⟩ := h
    simp at h; subst h; (dsimp only; exact one_assign _ _ _ _)
  · rw [Outcome.bind_eq_ok] at h
    obtain ⟨p, _, h⟩ := h
    simp at h; subst h; (dsimp only; exact one_assign _ _ _ _)
  · exact parseNumeric_evolves h
  · exact parseNumeric_evolves h
  · unfold parseEnum at h
    rw [Outcome.bind_eq_ok] at h
    obtain ⟨p, _, h⟩ := h
    split at h
    · simp at h; subst h; exact ⟨[], rfl⟩
    · split at h
      · simp at h; subst h; (dsimp only; exact one_assign _ _ _ _)
      · split at h
        · simp at h; subst h; (dsimp only; exact one_assign _ _ _ _)
        · simp at h; subst h; exact ⟨[], rfl⟩
  · unfold parseString at h
    rw [Outcome.bind_eq_ok] at h
    obtain ⟨p, _, h⟩ := h
    split at h
    · simp at h; subst h; exact ⟨[], rfl⟩
    · simp at h; subst h; (dsimp only; exact one_assign _ _ _ _)
  · unfold parseString at h
    rw [Outcome.bind_eq_ok] at h
    obtain ⟨p, _, h⟩ := h
    split at h
    · simp at h; subst h; exact ⟨[], rfl⟩
    · simp at h; subst h; (dsimp only; exact one_assign _ _ _ _)
  · unfold parseVec3 at h
    rw [Outcome.bind_eq_ok] at h
    obtain ⟨p, _, h⟩ := h
    split at h
    · simp at h; subst h; exact ⟨[], rfl⟩
    · rw [Outcome.bind_eq_ok] at h
      obtain ⟨p, _, h⟩ := h
      split at h
      · simp at h; subst h; exact ⟨[], rfl⟩
      · rw [Outcome.bind_eq_ok] at h
        obtain ⟨p, _, h⟩ := h
        split at h
        · simp at h; subst h; exact ⟨[], rfl⟩
        · simp at h; subst h; (dsimp only; exact one_assign _ _ _ _)
  · unfold parseMangle at h
    rw [Outcome.bind_eq_ok] at h
    obtain ⟨p, _, h⟩ := h
    simp at h; subst h; (dsimp only; exact one_assign _ _ _ _)
  · simp at h; subst h; exact ⟨[], rfl⟩
  · simp at h; subst h; exact ⟨[], rfl⟩

theorem parseRedirect_evolves {σ : Type} [Tokens σ] {env : Env} {name : Str} {src : Source}
    {is : List Nat} {cs : Container} {st : σ} {r : Bool × Container × σ}
    (h : parseRedirect env name src cs is st = .ok r) : EvolvesAll src cs r.2.1 := by
  induction is generalizing cs st r with
  | nil => simp [parseRedirect] at h; subst h; exact EvolvesAll.refl _ _
  | cons i is ih =>
    unfold parseRedirect at h
    split at h
    · simp at h
    · rename_i s hs
      rw [Outcome.bind_eq_ok] at h
      obtain ⟨a, ha, hb⟩ := h
      have h1 := setCell_evolves hs (parsePlain_evolves ha)
      split at hb
      · exact h1.trans (ih hb)
      · simp at hb; subst hb; exact h1

theorem runFunc_evolves {src : Source} {as : List (Nat × Val)} {cs cs' : Container}
    (h : runFunc src cs as = .ok cs') : EvolvesAll src cs cs' := by
  induction as generalizing cs with
  | nil => simp [runFunc] at h; subst h; exact EvolvesAll.refl _ _
  | cons a as ih =>
    obtain ⟨i, v⟩ := a
    unfold runFunc at h
    split at h
    · simp at h
    · rename_i s hs
      exact (setCell_evolves hs ⟨[v], rfl⟩).trans (ih h)

theorem parseAt_evolves {σ : Type} [Tokens σ] {env : Env} {cs : Container} {i : Nat} {name : Str}
    {src : Source} {st : σ} {r : Bool × Container × σ} (h : parseAt env cs i name src st = .ok r) :
    EvolvesAll src cs r.2.1 := by
  unfold parseAt at h
  split at h
  · simp at h
  · rename_i s hs
    split at h
    · exact parseRedirect_evolves h
    · rw [Outcome.bind_eq_ok] at h
      obtain ⟨a, ha, hb⟩ := h
      simp at hb; subst hb; exact runFunc_evolves ha
    · rw [Outcome.bind_eq_ok] at h
      obtain ⟨a, ha, hb⟩ := h
      simp at hb; subst hb
      exact setCell_evolves hs (parsePlain_evolves ha)

theorem setSetting_evolves {env : Env} {cs : Container} {n v : Str} {src : Source}
    {r : Result × Container} (h : setSetting env cs n v src = .ok r) : EvolvesAll src cs r.2 := by
  unfold setSetting at h
  split at h
  · split at h
    · simp at h
    · simp at h; subst h; exact EvolvesAll.refl _ _
  · split at h
    · simp at h
    · rw [Outcome.bind_eq_ok] at h
      obtain ⟨a, ha, hb⟩ := h
      simp at hb; subst hb; exact parseAt_evolves ha

theorem setSettings_evolves {env : Env} {src : Source} {d : EntData.Dict} {cs cs' : Container}
    (h : setSettings env src cs d = .ok cs') : EvolvesAll src cs cs' := by
  induction d generalizing cs with
  | nil => simp [setSettings] at h; subst h; exact EvolvesAll.refl _ _
  | cons a d ih =>
    obtain ⟨k, v⟩ := a
    unfold setSettings at h
    rw [Outcome.bind_eq_ok] at h
    obtain ⟨a, ha, hb⟩ := h
    exact (setSetting_evolves ha).trans (ih hb)

theorem parseArgs_evolves {env : Env} {args : List Str} {cs : Container} {r : Container × List Str}
    (h : parseArgs env cs args = .ok r) : EvolvesAll .commandLine cs r.1 := by
  fun_induction parseArgs env cs args generalizing r
  case case1 => simp at h; subst h; exact EvolvesAll.refl _ _
  case case2 => simp at h; subst h; exact EvolvesAll.refl _ _
  case case3 | case4 | case5 | case6 | case7 | case8 => simp at h
  case case9 hp ih =>
    have h1 := parseAt_evolves hp
    exact h1.trans (ih h)

/-- Every event other than a reset evolves a container. -/
theorem Op.evolves {env : Env} {cs cs' : Container} {o : Op} {src : Source} (hs : o.source = some src)
    (h : o.run env cs = .ok cs') : EvolvesAll src cs cs' := by
  cases o with
  | key n v s =>
    simp [Op.source] at hs; subst hs
    simp only [Op.run] at h
    rw [Outcome.bind_eq_ok] at h
    obtain ⟨a, ha, hb⟩ := h
    simp at hb; subst hb; exact setSetting_evolves ha
  | entity d s =>
    simp [Op.source] at hs; subst hs
    exact setSettings_evolves h
  | args l =>
    simp [Op.source] at hs; subst hs
    simp only [Op.run] at h
    rw [Outcome.bind_eq_ok] at h
    obtain ⟨a, ha, hb⟩ := h
    simp at hb; subst hb; exact parseArgs_evolves ha
  | direct i v s =>
    simp [Op.source] at hs; subst hs
    simp only [Op.run] at h
    split at h
    · simp at h
    · rename_i st hst
      simp at h; subst h; exact setCell_evolves hst ⟨[v], rfl⟩
  | reset => simp [Op.source] at hs

/-- An invariant of settings kept by every assignment and by resets is kept by every history. -/
theorem runOps_invariant {env : Env} (P : Setting → Prop)
    (hassign : ∀ s v src, P s → P { s with cell := s.cell.assign s.kind v src })
    (hreset : ∀ s, P s → P { s with cell := s.cell.reset })
    {ops : List Op} {cs cs' : Container} (h : runOps env cs ops = .ok cs')
    (hp : ∀ s ∈ cs, P s) : ∀ s ∈ cs', P s := by
  have hfold : ∀ (vs : List Val) (s : Setting) (src : Source), P s →
      P { s with cell := vs.foldl (fun c v => c.assign s.kind v src) s.cell } := by
    intro vs
    induction vs with
    | nil => intro s src h; exact h
    | cons v vs ih =>
      intro s src h
      exact ih { s with cell := s.cell.assign s.kind v src } src (hassign s v src h)
  induction ops generalizing cs with
  | nil => simp [runOps] at h; subst h; exact hp
  | cons o os ih =>
    unfold runOps at h
    rw [Outcome.bind_eq_ok] at h
    obtain ⟨c1, h1, h2⟩ := h
    refine ih h2 ?_
    cases hsrc : o.source with
    | none =>
      cases o <;> simp [Op.source] at hsrc
      simp [Op.run] at h1
      subst h1
      intro s hs
      simp only [resetAll, List.mem_map] at hs
      obtain ⟨t, ht, e⟩ := hs
      rw [← e]
      exact hreset t (hp t ht)
    | some src =>
      have hev := Op.evolves hsrc h1
      intro s' hs'
      obtain ⟨i, hi⟩ := List.mem_iff_getElem?.mp hs'
      have hlt : i < cs.length := by
        rw [← hev.1]
        exact (List.getElem?_eq_some_iff.mp hi).1
      have hget : cs[i]? = some cs[i] := List.getElem?_eq_getElem hlt
      obtain ⟨t, ht, hn, hk, vs, hc⟩ := hev.2 i _ hget
      rw [hi] at ht
      obtain rfl := Option.some.inj ht
      have := hfold vs cs[i] src (hp _ (List.getElem_mem hlt))
      rw [← hc] at this
      have e : ({ cs[i] with cell := s'.cell } : Setting) = s' := by
        obtain ⟨a, b, c⟩ := s'
        simp only at hn hk
        simp [hn, hk]
      rw [e] at this
      exact this

/-! ### Words -/

theorem unquoted_word (w : Str) (hw : ∀ b ∈ w, 32 < b ∧ b < 128) :
    Parser.unquoted (w ++ [0]) = .ok (w, [0]) := by
  induction w with
  | nil => decide
  | cons b bs ih =>
    have hb := hw b (by simp)
    have : Parser.isBlank b = false := by
      rw [Bool.eq_false_iff]
      intro h
      rw [Parser.isBlank_iff] at h
      rcases h with h | h
      · exact absurd hb.1 (UInt8.not_lt.mpr h)
      · exact absurd hb.2 (UInt8.not_lt.mpr h)
    rw [List.cons_append]
    unfold Parser.unquoted
    rw [this, ih (fun b hb => hw b (by simp [hb]))]
    simp

theorem next_word {w : Str} (hw : Word w) :
    Tokens.next (⟨w ++ [0], 1, [], false⟩ : Parser.State) =
      .ok (some w, (⟨[0], 1, w, false⟩ : Parser.State)) := by
  obtain ⟨hne, hall, h34, h59, h47⟩ := hw
  cases w with
  | nil => simp at hne
  | cons b bs =>
    have hb := hall b (by simp)
    have hblank : Parser.isBlank b = false := by
      rw [Bool.eq_false_iff]
      intro h
      rw [Parser.isBlank_iff] at h
      rcases h with h | h
      · exact absurd hb.1 (UInt8.not_lt.mpr h)
      · exact absurd hb.2 (UInt8.not_lt.mpr h)
    have hskip : Parser.skipSpace 1 {} ((b :: bs) ++ [0]) 1 = .ok (.found ((b :: bs) ++ [0]) 1) := by
      rw [List.cons_append]
      unfold Parser.skipSpace
      simp [Parser.atEnd, hblank]
    have hcomment : Parser.isComment ((b :: bs) ++ [0]) = .ok false := by
      rw [List.cons_append]
      unfold Parser.isComment
      simp at h34 h59 h47
      simp [Parser.SLASH, Parser.SEMI, h47, h59]
    have hscan : Parser.scan 1 {} ((b :: bs) ++ [0]) 1 = Parser.copyToken ((b :: bs) ++ [0]) 1 := by
      rw [Parser.scan.eq_def]
      split
      · rename_i h; rw [hskip] at h; cases h
      · rename_i h; rw [hskip] at h; cases h
      · rename_i h; rw [hskip] at h; cases h
      · rename_i h; rw [hskip] at h
        simp only [Outcome.ok.injEq, Parser.Skip.found.injEq] at h
        obtain ⟨rfl, rfl⟩ := h
        split
        · rename_i h; rw [hcomment] at h; cases h
        · rename_i h; rw [hcomment] at h; cases h
        · rename_i h; rw [hcomment] at h; cases h
        · simp
    have hcopy : Parser.copyToken ((b :: bs) ++ [0]) 1 =
        .ok (true, (⟨[0], 1, b :: bs, false⟩ : Parser.State)) := by
      rw [List.cons_append]
      unfold Parser.copyToken
      simp at h34
      have := unquoted_word (b :: bs) hall
      rw [List.cons_append] at this
      simp [Parser.QUOTE, h34, this]
    show (do
      let r ← Parser.parseToken 1 {} false (⟨(b :: bs) ++ [0], 1, [], false⟩ : Parser.State)
      pure (if r.1 then some r.2.token else none, r.2)) = _
    unfold Parser.parseToken
    simp only [Bool.false_eq_true, if_false]
    rw [hscan, hcopy]
    rfl

/-! ### Numbers -/

theorem digit_facts : ∀ d < 10, isDigit (UInt8.ofNat (48 + d)) = true ∧
    isSpace (UInt8.ofNat (48 + d)) = false ∧ UInt8.ofNat (48 + d) ≠ 45 ∧
    UInt8.ofNat (48 + d) ≠ 43 ∧ 48 ≤ UInt8.ofNat (48 + d) ∧ UInt8.ofNat (48 + d) ≤ 57 := by decide

theorem digits_append (ds : List Nat) (hd : ∀ d ∈ ds, d < 10) (acc : Nat) :
    digits acc (digitText ds) = acc * 10 ^ ds.length + decValue ds := by
  induction ds generalizing acc with
  | nil => simp [digitText, digits, decValue]
  | cons d ds ih =>
    have hd0 : d < 10 := hd d (by simp)
    have hdig : isDigit (UInt8.ofNat (48 + d)) = true := (digit_facts d hd0).1
    have hval : (UInt8.ofNat (48 + d)).toNat - 48 = d := by
      rw [UInt8.toNat_ofNat']
      omega
    simp only [digitText, List.map_cons, digits, hdig, if_true, hval]
    have := ih (fun d hd' => hd d (by simp [hd'])) (acc * 10 + d)
    simp only [digitText] at this
    rw [this]
    simp only [List.length_cons, decValue, Nat.pow_succ]
    rw [Nat.add_mul, Nat.mul_assoc, Nat.mul_comm 10, Nat.add_assoc]

theorem digitText_word {ds : List Nat} (hd : ∀ d ∈ ds, d < 10) (hne : ds ≠ []) : Word (digitText ds) := by
  have hall : ∀ b ∈ digitText ds, 48 ≤ b ∧ b ≤ 57 := by
    intro b hb
    simp only [digitText, List.mem_map] at hb
    obtain ⟨d, hd', rfl⟩ := hb
    exact (digit_facts d (hd d hd')).2.2.2.2
  have hhead : ∀ b, (digitText ds).head? = some b → 48 ≤ b ∧ b ≤ 57 := by
    intro b hb
    exact hall b (List.mem_of_head? hb)
  refine ⟨by simpa [digitText] using hne, ?_, ?_, ?_, ?_⟩
  · intro b hb
    have := hall b hb
    constructor
    · exact UInt8.lt_of_lt_of_le (by decide) this.1
    · exact UInt8.lt_of_le_of_lt this.2 (by decide)
  all_goals
    intro hb
    have := hhead _ hb
    revert this
    decide

theorem scanNumber_digits {ds : List Nat} (hd : ∀ d ∈ ds, d < 10) (hne : ds ≠ []) :
    scanNumber (digitText ds) = some (false, decValue ds) := by
  cases ds with
  | nil => simp at hne
  | cons d ds =>
    have hd0 : d < 10 := hd d (by simp)
    have hdig : isDigit (UInt8.ofNat (48 + d)) = true := (digit_facts d hd0).1
    have hfacts : isSpace (UInt8.ofNat (48 + d)) = false ∧ UInt8.ofNat (48 + d) ≠ 45 ∧
        UInt8.ofNat (48 + d) ≠ 43 :=
      ⟨(digit_facts d hd0).2.1, (digit_facts d hd0).2.2.1, (digit_facts d hd0).2.2.2.1⟩
    have hdrop : (digitText (d :: ds)).dropWhile isSpace = digitText (d :: ds) := by
      simp only [digitText, List.map_cons, List.dropWhile_cons, hfacts.1, Bool.false_eq_true, if_false]
    have hdg := digits_append (d :: ds) hd 0
    unfold scanNumber
    rw [hdrop]
    simp only [digitText, List.map_cons] at *
    split
    · rename_i h; simp at h
    · rename_i h; exact absurd (List.cons.inj h).1 hfacts.2.1
    · rename_i h; exact absurd (List.cons.inj h).1 hfacts.2.2
    · rename_i h
      obtain ⟨h1, h2⟩ := List.cons.inj h
      subst h1 h2
      rw [if_pos hdig, hdg]
      simp

theorem clampBy_int (n lo hi : Int) (h : lo ≤ hi) :
    clampBy (fun a b => decide (a < b)) n lo hi = clampInt n lo hi := by
  unfold clampBy clampInt
  simp only [decide_eq_true_eq]
  split
  · omega
  · split <;> omega

end Verif.Settings
