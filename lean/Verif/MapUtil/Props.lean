import Verif.MapUtil.Lemmas
import Verif.MapText.Props

/-! `maputil`: saving a map (C199) and the commands (C201). -/

namespace Verif.MapUtil

open Verif.EntData (Str Dict)
open Verif.MapText (Env)
open Verif.MapText.Spec (Word Numbers)
open Spec

variable {N : Type}

/-! ### C199 -/

/-- **C199**: what `--save` writes is read back as the same entities in the same order, with the same keys and values, the same
brushes, and the same points, texture names, texture definitions and surface info on their faces. Missing: definitions of QuArK
(`quark_lost`), brush primitives (`primitives_unreadable`, `primitives_unwritable`), and surface info of fewer than three numbers
(`short_info_ub`). -/
theorem save_reads_back_partial (env : Env N) (h : Numbers env) (hkey : env.key = MapText.trimKey) (es : List (Ent N))
    (hes : ∀ e ∈ es, EntOk env false e) : ∃ t, save env es = .ok t ∧ load env t = .ok es := by
  obtain ⟨u, hu, hlen, hp⟩ := ents_shown env h hkey false (by simp) es [] 0 hes
  refine ⟨u, hu, ?_⟩
  have := hp [] (u.length + 1) 1 [] false (.inl rfl) (by omega)
  simp only [List.nil_append] at this
  rw [load, Parser.ofFile, this]
  have hb : ∀ e ∈ es, plainEnt e = id e := by
    intro e he
    obtain ⟨d, bs⟩ := e
    have : bs.map plainBrush = bs.map id := List.map_congr_left fun b hb => by
      obtain ⟨pr, fs⟩ := b
      have : fs.map plainFace = fs.map id := List.map_congr_left fun f hf => by
        have := (((hes _ he).brushes _ hb).faces f hf).tdef
        obtain ⟨p0, p1, p2, tex, d, i⟩ := f
        cases d <;> simp_all [plainFace, plainDef, DefOk]
      simp [plainBrush, this]
    simp [plainEnt, this]
  rw [List.map_congr_left hb, List.map_id]

/-- **C199**, what happens to QuArK: the comment is written without a blank before it, and becomes a part of the last number, where
reading stops. Every face of QuArK's is read back as one of Quake's editor, whose texture is elsewhere. -/
theorem quark_lost (env : Env N) (h : Numbers env) (hS : Stops env) (hkey : env.key = MapText.trimKey) (es : List (Ent N))
    (hes : ∀ e ∈ es, EntOk env true e) : ∃ t, save env es = .ok t ∧ load env t = .ok (es.map plainEnt) := by
  obtain ⟨u, hu, hlen, hp⟩ := ents_shown env h hkey true (fun _ => hS) es [] 0 hes
  refine ⟨u, hu, ?_⟩
  have := hp [] (u.length + 1) 1 [] false (.inl rfl) (by omega)
  simpa [load, Parser.ofFile] using this

/-! A world of integers, whose reading stops at a slash. -/

/-- The value if it fits 32 bits. -/
def fit (x : Outcome Int) : Outcome Int :=
  match x with
  | .ok i => if -2 ^ 31 ≤ i ∧ i < 2 ^ 31 then .ok i else .error
  | e => e

/-- Integers; all faces are kept. -/
def exEnv : Env Int :=
  { MapText.exEnv with read := fun t => MapText.rd (t.takeWhile (· ≠ 47)), readI := fun t => fit (MapText.rd (t.takeWhile (· ≠ 47))) }

theorem decimal_slash (i : Int) : ∀ c ∈ Styles.decimal i, c ≠ 47 := by
  intro c hc
  have hd := MapText.digit_bytes i.natAbs
  unfold Styles.decimal at hc
  split at hc
  · rcases List.mem_cons.1 hc with rfl | hc
    · decide
    · rintro rfl
      exact absurd (hd _ hc).1 (by decide)
  · rintro rfl
    exact absurd (hd _ hc).1 (by decide)

theorem take_decimal (i : Int) (c : Str) : (Styles.decimal i ++ 47 :: c).takeWhile (· ≠ 47) = Styles.decimal i := by
  rw [List.takeWhile_append_of_pos (fun x hx => by simpa using decimal_slash i x hx)]
  simp

theorem take_all (i : Int) : (Styles.decimal i).takeWhile (· ≠ 47) = Styles.decimal i := by
  have := List.takeWhile_append_of_pos (p := (· ≠ 47)) (l₁ := Styles.decimal i) (l₂ := []) (fun x hx => by simpa using decimal_slash i x hx)
  simpa using this

theorem head_decimal (i : Int) : (Styles.decimal i).head? ≠ some 47 := by
  intro h
  exact decimal_slash i 47 (List.mem_of_head? h) rfl

theorem exNumbers : Numbers exEnv where
  word := MapText.word_decimal
  bracket := MapText.exNumbers.bracket
  read := fun x => by
    show MapText.rd ((Styles.decimal x).takeWhile (· ≠ 47)) = .ok x
    rw [take_all, MapText.rd_decimal]
  zero := ⟨0, by decide⟩
  wordInt := MapText.word_decimal
  readU := fun i _ _ => MapText.rd_decimal i
  readI := fun i h1 h2 => by
    show fit (MapText.rd ((Styles.decimal i).takeWhile (· ≠ 47))) = .ok i
    rw [take_all, MapText.rd_decimal]
    simp only [fit]
    exact if_pos ⟨h1, h2⟩
  zeroU := by decide
  zeroI := by decide

theorem exStops : Stops exEnv where
  slash := head_decimal
  slashInt := head_decimal
  read := fun x c => by
    show MapText.rd ((Styles.decimal x ++ 47 :: 47 :: c).takeWhile (· ≠ 47)) = .ok x
    rw [take_decimal, MapText.rd_decimal]
  readI := fun i c h1 h2 => by
    show fit (MapText.rd ((Styles.decimal i ++ 47 :: 47 :: c).takeWhile (· ≠ 47))) = .ok i
    rw [take_decimal, MapText.rd_decimal]
    simp only [fit]
    exact if_pos ⟨h1, h2⟩

def exFace : Face Int := ⟨(0, 0, 0), (0, 1, 0), (1, 0, 0), [97], .quaked (8, -16) 90 (1, -1), none⟩
def exValve : Face Int :=
  ⟨(0, 0, 64), (0, 1, 64), (1, 0, 64), [43, 48, 98], .valve ((1, 0, 0), 3) ((0, -1, 0), 4) (some 30) (1, 2), some (1, some 512, some (-7))⟩
def exQuark : Face Int := { exFace with tdef := .etp (8, -16) 90 (1, -1) true }

/-- An entity with two keys and a brush. -/
def exEnt (fs : List (Face Int)) : Ent Int := ⟨[([107], [118, 32, 120]), ([108], [])], [⟨false, fs⟩]⟩

theorem exFacesOk : FaceOk false exFace ∧ FaceOk false exValve ∧ FaceOk true exQuark := by
  refine ⟨⟨⟨by decide, by decide, by decide, by decide, by decide⟩, trivial, by intro i hi; simp [exFace] at hi⟩,
    ⟨⟨by decide, by decide, by decide, by decide, by decide⟩, by simp [DefOk, exValve], ?_⟩,
    ⟨⟨by decide, by decide, by decide, by decide, by decide⟩, rfl, by intro i hi; simp [exFace, exQuark] at hi⟩⟩
  intro i hi
  simp [exValve] at hi
  subst hi
  exact ⟨512, -7, rfl, by decide, by decide, by decide⟩

theorem exEntOk (quark : Bool) (fs : List (Face Int)) (hne : fs ≠ []) (hf : ∀ f ∈ fs, FaceOk quark f) : EntOk exEnv quark (exEnt fs) := by
  have := MapText.exEntOk
  refine ⟨this.nodup, this.keys, this.values, ?_⟩
  intro b hb
  simp [exEnt] at hb
  subst hb
  exact ⟨rfl, hne, hf, fun _ _ _ _ => rfl⟩

-- an entity with keys, a brush, two kinds of definitions, and surface info on one face
example : ∃ t, save exEnv [exEnt [exFace, exValve], ⟨[], []⟩] = .ok t ∧ load exEnv t = .ok [exEnt [exFace, exValve], ⟨[], []⟩] :=
  save_reads_back_partial exEnv exNumbers rfl _ (by
    intro e he
    simp at he
    rcases he with rfl | rfl
    · exact exEntOk false _ (by simp) (by
        intro f hf
        simp at hf
        rcases hf with rfl | rfl
        · exact exFacesOk.1
        · exact exFacesOk.2.1)
    · exact ⟨by simp, by simp, by simp, by simp⟩)

-- a face of QuArK's
example : ∃ t, save exEnv [exEnt [exQuark]] = .ok t ∧ load exEnv t = .ok [exEnt [exFace]] :=
  quark_lost exEnv exNumbers exStops rfl [exEnt [exQuark]] (by
    intro e he
    simp at he
    subst he
    exact exEntOk true _ (by simp) (by
      intro f hf
      simp at hf
      subst hf
      exact exFacesOk.2.2))

/-- A definition of QuArK is read as one. -/
theorem quark_read : load exEnv (txt "{\n{\n( 0 0 0 ) ( 0 1 0 ) ( 1 0 0 ) a 8 -16 90 1 -1 //TX2\n}\n}\n") = .ok [⟨[], [⟨false, [exQuark]⟩]⟩] := by
  decide +kernel

/-- With fewer than three numbers of surface info the others are never set, and writing them is undefined. -/
theorem short_info_ub : ∃ es, load exEnv (txt "{\n{\n( 0 0 0 ) ( 0 1 0 ) ( 1 0 0 ) a 8 -16 90 1 -1 4\n}\n}\n") = .ok es ∧ save exEnv es = .ub :=
  ⟨[⟨[], [⟨false, [{ exFace with info := some (4, none, none) }]⟩]⟩], by decide +kernel, by decide +kernel⟩

/-- A texture name with a space is written without quotes, and what is written cannot be read. -/
theorem quoted_name_lost : ∃ es t, load exEnv (txt "{\n{\n( 0 0 0 ) ( 0 1 0 ) ( 1 0 0 ) \"a b\" 8 -16 90 1 -1\n}\n}\n") = .ok es ∧
    save exEnv es = .ok t ∧ load exEnv t = .error :=
  ⟨[⟨[], [⟨false, [{ exFace with tex := [97, 32, 98] }]⟩]⟩],
    txt "// entity 0\n{\n// brush 0\n{\n( 0 0 0 ) ( 0 1 0 ) ( 1 0 0 ) a b 8 -16 90 1 -1\n}\n}\n",
    by decide +kernel, by decide +kernel, by decide +kernel⟩

/-- Two maps that qbsp reads and `maputil` does not: a comment of QuArK's behind a definition of Valve's, and contents with the
highest bit. -/
theorem qbsp_reads_more :
    (∀ t, t = txt "{\n{\n( 0 0 0 ) ( 0 1 0 ) ( 1 0 0 ) a [ 1 0 0 0 ] [ 0 1 0 0 ] 0 1 1 //TX1\n}\n}\n" ∨
        t = txt "{\n{\n( 0 0 0 ) ( 0 1 0 ) ( 1 0 0 ) a 8 -16 90 1 -1 2147483648 0 0\n}\n}\n" →
      load exEnv t = .error ∧ ∃ es, MapText.loadMap MapText.exEnv t = .ok es) := by
  rintro t (rfl | rfl)
  · exact ⟨by decide +kernel, ⟨_, (by decide +kernel : _ = Outcome.ok [⟨[], [[⟨(0, 0, 0), (0, 1, 0), (1, 0, 0), [97],
      .valve ((1, 0, 0), 0) ((0, 1, 0), 0) (1, 1), none⟩]]⟩])⟩⟩
  · exact ⟨by decide +kernel, ⟨_, (by decide +kernel : _ = Outcome.ok [⟨[], [[⟨(0, 0, 0), (0, 1, 0), (1, 0, 0), [97],
      .quaked (8, -16) 90 (1, -1) 0, some (2147483648, 0, 0)⟩]]⟩])⟩⟩

/-- No face of brush primitives is ever read: a map with one is an error, or is undefined before. -/
theorem prim_face (env : Env N) (p : Parser.State) : ∀ r, parseFace env true p ≠ .ok r := by
  intro r h
  simp only [parseFace, textureDef, if_true] at h
  obtain ⟨a, -, h⟩ := Outcome.bind_eq_ok.1 h
  obtain ⟨b, hb, h⟩ := Outcome.bind_eq_ok.1 h
  obtain ⟨m, -, hb⟩ := Outcome.bind_eq_ok.1 hb
  obtain ⟨t, -, hb⟩ := Outcome.bind_eq_ok.1 hb
  obtain ⟨x, -, hb⟩ := Outcome.bind_eq_ok.1 hb
  cases hb

theorem prim_faces (env : Env N) : ∀ (k : Nat) (acc : List (Face N)) (p : Parser.State) r, parseFaces env true k acc p = .ok r → r.1 = acc := by
  intro k acc p r h
  cases k with
  | zero => cases h
  | succ k =>
    simp only [parseFaces] at h
    obtain ⟨a, -, h⟩ := Outcome.bind_eq_ok.1 h
    split at h
    · cases h; rfl
    · obtain ⟨f, hf, -⟩ := Outcome.bind_eq_ok.1 h
      exact absurd hf (prim_face env _ f)

theorem plain_face (env : Env N) (p : Parser.State) (r) (h : parseFace env false p = .ok r) : ∀ s t, r.1.tdef ≠ .prim s t := by
  intro s t hc
  simp only [parseFace, textureDef, Bool.false_eq_true, if_false] at h
  obtain ⟨a, -, h⟩ := Outcome.bind_eq_ok.1 h
  obtain ⟨b, hb, h⟩ := Outcome.bind_eq_ok.1 h
  obtain ⟨w, -, hb⟩ := Outcome.bind_eq_ok.1 hb
  obtain ⟨k, -, hb⟩ := Outcome.bind_eq_ok.1 hb
  obtain ⟨m, hm, hb⟩ := Outcome.bind_eq_ok.1 hb
  obtain ⟨x, -, hb⟩ := Outcome.bind_eq_ok.1 hb
  cases hb
  cases h
  have hq : (∃ sh r sc, m.1 = .quaked sh r sc) ∨ ∃ s t r sc, m.1 = .valve s t r sc := by
    split at hm
    · simp only [valveTX] at hm
      obtain ⟨_, -, hm⟩ := Outcome.bind_eq_ok.1 hm
      obtain ⟨_, -, hm⟩ := Outcome.bind_eq_ok.1 hm
      obtain ⟨_, -, hm⟩ := Outcome.bind_eq_ok.1 hm
      obtain ⟨_, -, hm⟩ := Outcome.bind_eq_ok.1 hm
      obtain ⟨_, -, hm⟩ := Outcome.bind_eq_ok.1 hm
      cases hm
      exact .inr ⟨_, _, _, _, rfl⟩
    · simp only [quakeTX] at hm
      obtain ⟨_, -, hm⟩ := Outcome.bind_eq_ok.1 hm
      obtain ⟨_, -, hm⟩ := Outcome.bind_eq_ok.1 hm
      obtain ⟨_, -, hm⟩ := Outcome.bind_eq_ok.1 hm
      obtain ⟨_, -, hm⟩ := Outcome.bind_eq_ok.1 hm
      obtain ⟨_, -, hm⟩ := Outcome.bind_eq_ok.1 hm
      cases hm
      exact .inl ⟨_, _, _, rfl⟩
  simp only at hc
  rcases hq with ⟨_, _, _, e⟩ | ⟨_, _, _, _, e⟩ <;> rw [e] at hc <;> revert hc <;> cases x.1.1 <;> simp [Def.withQuark]

theorem faces_no_prim (env : Env N) : ∀ (k : Nat) (acc : List (Face N)) (p : Parser.State) r, parseFaces env false k acc p = .ok r →
    (∀ f ∈ acc, ∀ s t, f.tdef ≠ .prim s t) → ∀ f ∈ r.1, ∀ s t, f.tdef ≠ .prim s t := by
  intro k
  induction k with
  | zero => intro acc p r h; cases h
  | succ k ih =>
    intro acc p r h hacc
    simp only [parseFaces] at h
    obtain ⟨a, -, h⟩ := Outcome.bind_eq_ok.1 h
    split at h
    · cases h; exact hacc
    · obtain ⟨f, hf, h⟩ := Outcome.bind_eq_ok.1 h
      refine ih _ _ _ h ?_
      split
      · intro g hg
        rcases List.mem_append.1 hg with hg | hg
        · exact hacc g hg
        · simp at hg
          subst hg
          exact plain_face env _ _ hf
      · exact hacc

/-- A brush with faces is no brush primitive. -/
def NoPrim (b : Brush N) : Prop := b.prim = false ∧ ∀ f ∈ b.faces, ∀ s t, f.tdef ≠ .prim s t

theorem body_no_prim (env : Env N) : ∀ (k : Nat) (e : Ent N) (p : Parser.State) r, parseBody env k e p = .ok r →
    (∀ b ∈ e.brushes, NoPrim b) → ∀ b ∈ r.1.brushes, NoPrim b := by
  intro k
  induction k with
  | zero => intro e p r h; cases h
  | succ k ih =>
    intro e p r h he
    simp only [parseBody] at h
    obtain ⟨a, -, h⟩ := Outcome.bind_eq_ok.1 h
    split at h
    · cases h
    split at h
    · cases h; exact he
    split at h
    · obtain ⟨b, hb, h⟩ := Outcome.bind_eq_ok.1 h
      refine ih _ _ _ h ?_
      split
      · exact he
      · rename_i hne
        intro c hc
        rcases List.mem_append.1 hc with hc | hc
        · exact he c hc
        · simp at hc
          subst hc
          simp only [parseBrush] at hb
          obtain ⟨st, -, hb⟩ := Outcome.bind_eq_ok.1 hb
          obtain ⟨fs, hf, hb⟩ := Outcome.bind_eq_ok.1 hb
          obtain ⟨e', -, hb⟩ := Outcome.bind_eq_ok.1 hb
          cases hb
          cases hs : st.1 with
          | true =>
            rw [hs] at hf
            have := prim_faces env _ _ _ _ hf
            simp [this] at hne
          | false =>
            rw [hs] at hf
            exact ⟨rfl, faces_no_prim env _ _ _ _ hf (by simp)⟩
    · obtain ⟨d, -, h⟩ := Outcome.bind_eq_ok.1 h
      exact ih _ _ _ h he

/-- **C199**: no map with a face of brush primitives is loaded: a map that is loaded has none. -/
theorem primitives_unreadable (env : Env N) (text : Str) (es : List (Ent N)) (h : load env text = .ok es) :
    ∀ f ∈ faces es, ∀ s t, f.tdef ≠ .prim s t := by
  have main : ∀ (k : Nat) (acc : List (Ent N)) (p : Parser.State) es, parseEnts env k acc p = .ok es →
      (∀ e ∈ acc, ∀ b ∈ e.brushes, NoPrim b) → ∀ e ∈ es, ∀ b ∈ e.brushes, NoPrim b := by
    intro k
    induction k with
    | zero => intro acc p es h; cases h
    | succ k ih =>
      intro acc p es h hacc
      simp only [parseEnts] at h
      obtain ⟨a, ha, h⟩ := Outcome.bind_eq_ok.1 h
      split at h
      · cases h; exact hacc
      · rename_i e he
        refine ih _ _ _ h ?_
        intro e' he'
        rcases List.mem_append.1 he' with he' | he'
        · exact hacc e' he'
        · simp at he'
          subst he'
          simp only [parseEntity] at ha
          obtain ⟨x, -, ha⟩ := Outcome.bind_eq_ok.1 ha
          split at ha
          · cases ha; cases he
          split at ha
          · cases ha
          · obtain ⟨y, hy, ha⟩ := Outcome.bind_eq_ok.1 ha
            cases ha
            cases he
            exact body_no_prim env _ _ _ _ hy (by simp)
  intro f hf
  simp only [faces, List.mem_flatMap] at hf
  obtain ⟨e, he, b, hb, hf⟩ := hf
  exact (main _ _ _ _ h (by simp) e he b hb).2 f hf

/-- The smallest such map: qbsp reads it. -/
theorem primitives_refused : ∀ t, t = txt "{\n{\nbrushDef\n{\n( 0 0 0 ) ( 0 1 0 ) ( 1 0 0 ) ( ( 1 0 0 ) ( 0 1 0 ) ) a\n}\n}\n}\n" →
    load exEnv t = .error ∧ MapText.loadMap MapText.exEnv t = .ok [⟨[], [[⟨(0, 0, 0), (0, 1, 0), (1, 0, 0), [97], .prim (1, 0, 0) (0, 1, 0), none⟩]]⟩] := by
  rintro t rfl
  exact ⟨by decide +kernel, by decide +kernel⟩

-- a map that is loaded
example : ∀ f ∈ faces [(⟨[], [⟨false, [exQuark]⟩]⟩ : Ent Int)], ∀ s t, f.tdef ≠ .prim s t := primitives_unreadable exEnv _ _ quark_read

/-! ### C201 -/

theorem loop_commands (env : Env N) (c : Cmds N) : ∀ (n : Nat) (pre post : List Str) (k : Nat) (s : St N), post.length ≤ n → post.length < k →
    loop env c (pre ++ post) k pre.length s = inTurn env c (commands post) s := by
  intro n
  induction n with
  | zero =>
    intro pre post k s hn hk
    obtain rfl : post = [] := List.length_eq_zero_iff.1 (by omega)
    obtain ⟨k, rfl⟩ : ∃ m, k = m + 1 := ⟨k - 1, by omega⟩
    simp [loop, commands, inTurn]
  | succ n ih =>
    intro pre post k s hn hk
    obtain ⟨k, rfl⟩ : ∃ m, k = m + 1 := ⟨k - 1, by omega⟩
    match post, hn, hk with
    | [], _, _ => simp [loop, commands, inTurn]
    | [a], _, _ => simp [loop, commands, inTurn]
    | a :: b :: rest, hn, hk =>
      simp only [List.length_cons] at hn hk
      have h1 : ∀ s, loop env c (pre ++ a :: b :: rest) k (pre.length + 1) s = inTurn env c (commands (b :: rest)) s := by
        intro s
        have := ih (pre ++ [a]) (b :: rest) k s (by simp; omega) (by simp; omega)
        simpa using this
      have h2 : ∀ s, loop env c (pre ++ a :: b :: rest) k (pre.length + 2) s = inTurn env c (commands rest) s := by
        intro s
        have := ih (pre ++ [a, b]) rest k s (by omega) (by omega)
        simpa using this
      have g1 : (pre ++ a :: b :: rest)[pre.length]? = some a := by simp
      have g2 : (pre ++ a :: b :: rest)[pre.length + 1]? = some b := by simp
      have g3 : ¬ ¬ pre.length + 1 < (pre ++ a :: b :: rest).length := by simp
      rw [loop, if_neg g3, g1, commands]
      simp only
      cases hc : cmdOf a with
      | none => simp only [h1]
      | some cmd => cases cmd <;> simp only [g2, inTurn, h1, h2]

/-- **C201**: the commands are executed in the order of the arguments, each on what the ones before have left, until one fails; and
each has the argument behind it. -/
theorem run_commands (env : Env N) (c : Cmds N) (tool file : Str) (args : List Str) (text : Str) :
    run env c (tool :: file :: args) text = (load env text >>= fun m => inTurn env c (commands args) ⟨m, none, []⟩) := by
  unfold run
  congr 1
  funext m
  exact loop_commands env c args.length [tool, file] args _ _ (by omega) (by simp; omega)

/-- **C201**: no argument behind the end is read, whatever the arguments are: if nothing else is undefined, the run is not. -/
theorem run_in_bounds (env : Env N) (c : Cmds N) (tool file : Str) (args : List Str) (text : Str) (hl : load env text ≠ .ub)
    (he : ∀ s cmd arg, exec env c s cmd arg ≠ .ub) : run env c (tool :: file :: args) text ≠ .ub := by
  rw [run_commands]
  intro h
  rcases Outcome.bind_eq_ub.1 h with h | ⟨m, -, h⟩
  · exact hl h
  · have : ∀ (l : List (Cmd × Str)) (s : St N), inTurn env c l s ≠ .ub := by
      intro l
      induction l with
      | nil => intro s h; cases h
      | cons x l ih =>
        intro s h
        simp only [inTurn] at h
        rcases Outcome.bind_eq_ub.1 h with h | ⟨m, -, h⟩
        · exact he _ _ _ h
        · exact ih _ h
    exact this _ _ h

/-- **C201**: a map that is stripped and then saved is the same map without any surface info. -/
theorem strip_save (env : Env N) (c : Cmds N) (h : Numbers env) (hkey : env.key = MapText.trimKey) (tool file out : Str) (text : Str)
    (es : List (Ent N)) (hl : load env text = .ok es) (hes : ∀ e ∈ es, EntOk env false e) :
    ∃ t s, run env c [tool, file, txt "--strip_extended_info", txt "--save", out] text = .ok s ∧ s.saved = [(out, t)] ∧
      load env t = .ok (es.map fun e => { e with brushes := e.brushes.map fun b => { b with faces := b.faces.map fun f => { f with info := none } } }) := by
  obtain ⟨t, ht, hr⟩ := save_reads_back_partial env h hkey (strip es) (by
    intro e he
    simp only [strip, List.mem_map] at he
    obtain ⟨e, he, rfl⟩ := he
    obtain ⟨h1, h2, h3, h4⟩ := hes e he
    refine ⟨h1, h2, h3, ?_⟩
    intro b hb
    simp only [List.mem_map] at hb
    obtain ⟨b, hb, rfl⟩ := hb
    obtain ⟨g1, g2, g3, g4⟩ := h4 b hb
    refine ⟨g1, by simpa using g2, ?_, ?_⟩
    · intro f hf
      simp only [List.mem_map] at hf
      obtain ⟨f, hf, rfl⟩ := hf
      obtain ⟨k1, k2, k3⟩ := g3 f hf
      exact ⟨k1, k2, by simp⟩
    · intro a f d hd
      simp only at hd
      obtain ⟨a', r', e1, rfl, e2⟩ := List.map_eq_append_iff.1 hd
      obtain ⟨f', d', rfl, rfl, rfl⟩ := List.map_eq_cons_iff.1 e2
      have := g4 a' f' d' e1
      rw [List.map_map]
      exact this)
  have hc : commands [txt "--strip_extended_info", txt "--save", out] = [(.strip, []), (.save, out)] := by
    have h1 : cmdOf (txt "--strip_extended_info") = some .strip := by decide +kernel
    have h2 : cmdOf (txt "--save") = some .save := by decide +kernel
    simp [commands, h1, h2]
  refine ⟨t, ⟨strip es, none, [(out, t)]⟩, ?_, rfl, hr⟩
  rw [run_commands, hl, Outcome.ok_bind, hc]
  simp only [inTurn, exec, Outcome.ok_bind, ht, List.nil_append]

/-- Commands of which none is used. -/
def exCmds : Cmds Int := ⟨fun _ m => .ok m, fun _ m => .ok m, fun _ => true, fun _ _ f => .ok f.tdef⟩

-- the words of a command line: a word that is no command, a command that is an argument, and one without an argument
example : commands [txt "x", txt "--save", txt "--convert", txt "--convert", txt "quake", txt "--strip_extended_info", txt "--save"] =
    [(.save, txt "--convert"), (.convert, txt "quake"), (.strip, [])] := by decide +kernel

example : ∃ t s, run exEnv exCmds [[], [], txt "--strip_extended_info", txt "--save", [111]]
      (txt "{\n{\n( 0 0 0 ) ( 0 1 0 ) ( 1 0 0 ) a 8 -16 90 1 -1 1 2 3\n}\n}\n") = .ok s ∧ s.saved = [([111], t)] ∧
      load exEnv t = .ok [⟨[], [⟨false, [exFace]⟩]⟩] := by
  refine strip_save exEnv exCmds exNumbers rfl _ _ _ _ [⟨[], [⟨false, [{ exFace with info := some (1, some 2, some 3) }]⟩]⟩] (by decide +kernel) ?_
  intro e he
  simp at he
  subst he
  refine ⟨by simp, by simp, by simp, ?_⟩
  intro b hb
  simp at hb
  subst hb
  refine ⟨rfl, by simp, ?_, fun _ _ _ _ => rfl⟩
  intro f hf
  simp at hf
  subst hf
  refine ⟨exFacesOk.1.tex, trivial, ?_⟩
  intro i hi
  simp at hi
  subst hi
  exact ⟨2, 3, rfl, by decide, by decide, by decide⟩

/-- `--strip_extended_info` as the last argument is not executed, although it has no argument of its own; the usage text lists
the command like the others. -/
theorem last_strip_ignored (env : Env N) (c : Cmds N) (tool file : Str) (text : Str) (es : List (Ent N)) (hl : load env text = .ok es) :
    run env c [tool, file, txt "--strip_extended_info"] text = .ok ⟨es, none, []⟩ := by
  rw [run_commands, hl]
  simp [commands, inTurn]

end Verif.MapUtil
