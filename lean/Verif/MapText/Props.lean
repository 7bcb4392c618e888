import Verif.MapText.Lemmas
import Verif.MapText.Safe
import Verif.Styles.Lemmas

/-! The text of map files: C148 and C149. -/

namespace Verif.MapText

open Verif.EntData (Str Dict)
open Spec

variable {N : Type}

/-! ### C148 -/

/-- **C148**: what the option `-convert` writes is read back as the same entities in the same order, with the same keys and
values, the same brushes, and the same points, texture names and texture definitions on their faces. Surface info is read back
too; in brush primitives a face without any comes back with three zeros. -/
theorem convert_reads_back (env : Env N) (h : Numbers env) (hkey : env.key = trimKey) (bp : Bool) (es : List (Ent N))
    (hes : ∀ e ∈ es, EntOk env bp e) : loadMap env (wMap env bp es) = .ok (es.map (shownEnt bp)) := by
  have := parseEnts_shown env h hkey bp false es [] ((wMap env bp es).length + 1) 1 [] false [] (.inl rfl)
    (by have := length_ents env bp es; omega) hes
  simpa [loadMap, Parser.ofFile] using this

/-- **C148**: it is exactly what was written, if the file is not one of brush primitives or if each face has surface info. -/
theorem convert_reads_back_exactly (env : Env N) (h : Numbers env) (hkey : env.key = trimKey) (bp : Bool) (es : List (Ent N))
    (hes : ∀ e ∈ es, EntOk env bp e) (hi : bp = true → ∀ e ∈ es, ∀ b ∈ e.brushes, ∀ f ∈ b, f.info ≠ none) :
    loadMap env (wMap env bp es) = .ok es := by
  rw [convert_reads_back env h hkey bp es hes]
  have hf : ∀ e ∈ es, ∀ b ∈ e.brushes, ∀ f ∈ b, shownFace bp f = f := by
    intro e he b hb f hf
    cases bp with
    | false => simp [shownFace]
    | true =>
      have := hi rfl e he b hb f hf
      obtain ⟨p0, p1, p2, tex, tdef, info⟩ := f
      cases info with
      | none => simp at this
      | some i => simp [shownFace]
  have : es.map (shownEnt bp) = es.map id := by
    refine List.map_congr_left fun e he => ?_
    obtain ⟨d, bs⟩ := e
    simp only [shownEnt, id, Ent.mk.injEq, true_and]
    have : bs.map (fun b => b.map (shownFace bp)) = bs.map id := List.map_congr_left fun b hb => by
      have : b.map (shownFace bp) = b.map id := List.map_congr_left fun f hfm => hf _ he b hb f hfm
      simpa using this
    simpa using this
  simp [this]

/-! A world of integers. -/

/-- A decimal number with a sign. -/
def rd (t : Str) : Outcome Int :=
  match t with
  | [] => .error
  | c :: u => if c = 45 then .ok (-(Styles.valueOf u : Int)) else
      if 48 ≤ c ∧ c ≤ 57 then .ok (Styles.valueOf (c :: u) : Int) else .error

/-- Integers; all faces are kept. -/
def exEnv : Env Int where
  shown := Styles.decimal
  read := rd
  shownInt := Styles.decimal
  readU := rd
  readI := rd
  atoi := fun t => (match rd t with | .ok i => i | _ => 0)
  key := trimKey
  keep := fun _ _ => true

theorem digit_bytes (n : Nat) : ∀ c ∈ Styles.digitsOf n, 48 ≤ c ∧ c ≤ 57 := by
  intro c hc
  have := Styles.digitsOf_mem n c hc
  exact ⟨UInt8.le_iff_toNat_le.2 (by simpa using this.1), UInt8.le_iff_toNat_le.2 (by simpa using this.2)⟩

theorem digitsOf_ne (n : Nat) : Styles.digitsOf n ≠ [] := by
  rw [Styles.digitsOf.eq_def]
  split <;> simp

theorem rd_decimal (i : Int) : rd (Styles.decimal i) = .ok i := by
  unfold Styles.decimal
  split
  · rename_i h
    simp only [rd, if_true, Styles.valueOf_digitsOf]
    congr 1
    omega
  · rename_i h
    have hb := digit_bytes i.natAbs
    have hv := Styles.valueOf_digitsOf i.natAbs
    cases hd : Styles.digitsOf i.natAbs with
    | nil => exact absurd hd (digitsOf_ne _)
    | cons c u =>
      rw [hd] at hb hv
      have hc := hb c (by simp)
      have h45 : c ≠ 45 := by rintro rfl; exact absurd hc.1 (by decide)
      simp only [rd, h45, if_false, hc, and_self, if_true, hv]
      congr 1
      omega

theorem word_decimal (i : Int) : Word (Styles.decimal i) := by
  have hd := digit_bytes i.natAbs
  have hw : ∀ c : UInt8, 48 ≤ c ∧ c ≤ 57 → 32 < c ∧ c < 128 := fun c hc =>
    ⟨UInt8.lt_of_lt_of_le (by decide) hc.1, UInt8.lt_of_le_of_lt hc.2 (by decide)⟩
  unfold Styles.decimal
  split
  · refine ⟨by simp, ?_, by simp, by simp, ?_⟩
    · intro c hc
      rcases List.mem_cons.1 hc with rfl | hc
      · decide
      · exact hw c (hd c hc)
    · rintro ⟨u, hu⟩
      simp at hu
  · have hh : ∀ b, (b < 48 ∨ 57 < b) → (Styles.digitsOf i.natAbs).head? ≠ some b := by
      intro b hb he
      have := hd b (List.mem_of_head? he)
      rcases hb with hb | hb
      · exact absurd this.1 (UInt8.not_le.2 hb)
      · exact absurd this.2 (UInt8.not_le.2 hb)
    refine ⟨digitsOf_ne _, fun c hc => hw c (hd c hc), hh 34 (by decide), hh 59 (by decide), ?_⟩
    rintro ⟨u, hu⟩
    exact hh 47 (by decide) (by rw [← hu]; rfl)

theorem exNumbers : Numbers exEnv where
  word := word_decimal
  bracket := fun x hx => by
    have := rd_decimal x
    have hx : Styles.decimal x = [91] := hx
    rw [hx] at this
    exact absurd this (by simp [rd])
  read := rd_decimal
  zero := ⟨0, by decide⟩
  wordInt := word_decimal
  readU := fun i _ _ => rd_decimal i
  readI := fun i _ _ => rd_decimal i
  zeroU := by decide
  zeroI := by decide

/-- `a`. -/
def exFace : Face Int := ⟨(0, 0, 0), (0, 1, 0), (1, 0, 0), [97], .quaked (8, -16) 90 (1, -1) 0, none⟩
def exValve : Face Int := ⟨(0, 0, 64), (0, 1, 64), (1, 0, 64), [43, 48, 98], .valve ((1, 0, 0), 3) ((0, -1, 0), 4) (1, 2), some (1, 512, -7)⟩

/-- An entity with two keys and a brush. -/
def exEnt : Ent Int := ⟨[([107], [118, 32, 120]), ([108], [])], [[exFace, exValve]]⟩

theorem exBrushOk : BrushOk exEnv false [exFace, exValve] := by
  refine ⟨by simp, ?_, fun _ _ _ _ => rfl, ?_⟩
  · intro f hf
    simp at hf
    rcases hf with rfl | rfl
    · exact ⟨⟨by decide, by decide, by decide, by decide, by decide⟩, ⟨rfl, rfl⟩, by intro i hi; simp [exFace] at hi⟩
    · exact ⟨⟨by decide, by decide, by decide, by decide, by decide⟩, rfl, by
        intro i hi; simp [exValve] at hi; subst hi; unfold InfoOk; decide⟩
  · intro h
    have := h exFace (by simp)
    have := this.length_le
    simp [regionName, exFace] at this

theorem exEntOk : EntOk exEnv false exEnt := by
  refine ⟨by decide, ?_, ?_, ?_, ?_⟩
  · intro kv hkv
    simp [exEnt] at hkv
    rcases hkv with rfl | rfl
    · exact ⟨⟨.plain (by decide) (by decide) (by decide) .nil, by decide, ⟨107, rfl, by unfold EntData.Ink; decide⟩,
        ⟨107, rfl, by unfold EntData.Ink; decide⟩⟩, by decide⟩
    · exact ⟨⟨.plain (by decide) (by decide) (by decide) .nil, by decide, ⟨108, rfl, by unfold EntData.Ink; decide⟩,
        ⟨108, rfl, by unfold EntData.Ink; decide⟩⟩, by decide⟩
  · intro kv hkv
    simp [exEnt] at hkv
    rcases hkv with rfl | rfl
    · exact .inl (.plain (by decide) (by decide) (by decide) (.plain (by decide) (by decide) (by decide)
        (.plain (by decide) (by decide) (by decide) .nil)))
    · exact .inl .nil
  · intro b hb
    simp [exEnt] at hb
    subst hb
    exact exBrushOk
  · intro v hv
    simp [exEnt, omitKey] at hv

-- two entities, with keys, an empty value, a brush, two kinds of definitions, and surface info on one face
example : loadMap exEnv (wMap exEnv false [exEnt, ⟨[], []⟩]) = .ok [exEnt, ⟨[], []⟩] :=
  convert_reads_back_exactly exEnv exNumbers rfl false _ (by
    intro e he
    simp at he
    rcases he with rfl | rfl
    · exact exEntOk
    · exact ⟨by simp, by simp, by simp, by simp, by simp⟩) (by simp)

/-- Of a face without surface info, brush primitives give three zeros; in Quake 2 these take the place of the flags of the
texture. -/
theorem missing_info_becomes_zero :
    loadMap exEnv (wMap exEnv true [⟨[], [[{ exFace with tdef := .prim (1, 0, 0) (0, 1, 0) }]]⟩]) =
      .ok [⟨[], [[{ exFace with tdef := .prim (1, 0, 0) (0, 1, 0), info := some (0, 0, 0) }]]⟩] := by
  refine (convert_reads_back exEnv exNumbers rfl true _ ?_).trans rfl
  intro e he
  simp at he
  subst he
  refine ⟨by simp, by simp, by simp, ?_, by simp⟩
  intro b hb
  simp at hb
  subst hb
  refine ⟨by simp, ?_, fun _ _ _ _ => rfl, ?_⟩
  · intro f hf
    simp at hf
    subst hf
    exact ⟨⟨by decide, by decide, by decide, by decide, by decide⟩, rfl, by intro i hi; simp [exFace] at hi⟩
  · intro h
    have := (h { exFace with tdef := .prim (1, 0, 0) (0, 1, 0) } (by simp)).length_le
    simp [regionName, exFace] at this

/-- Text to bytes. -/
def txt (s : String) : Str := s.toList.map fun c => c.toNat.toUInt8

/-- A texture name with a space can be read, if it has quotes, but it is written without them. What is written cannot be read:
the second part of the name is not a number. -/
theorem quoted_name_lost :
    loadMap exEnv (txt "{\n{\n( 0 0 0 ) ( 0 1 0 ) ( 1 0 0 ) \"a b\" 0 0 0 1 1\n}\n}\n") =
      .ok [⟨[], [[{ exFace with tex := [97, 32, 98], tdef := .quaked (0, 0) 0 (1, 1) 0 }]]⟩] ∧
    loadMap exEnv (wMap exEnv false [⟨[], [[{ exFace with tex := [97, 32, 98], tdef := .quaked (0, 0) 0 (1, 1) 0 }]]⟩]) = .error := by
  constructor <;> decide +kernel

/-- The same world, with a region brush and another brush behind it. -/
def regionText (bp : Bool) : Str :=
  if bp then txt "{\n{\nbrushDef\n{\n( 0 0 0 ) ( 0 1 0 ) ( 1 0 0 ) ( ( 1 0 0 ) ( 0 1 0 ) ) region\n}\n}\n}\n"
  else txt "{\n{\n( 0 0 0 ) ( 0 1 0 ) ( 1 0 0 ) region 0 0 0 1 1\n}\n}\n"

/-- A region brush in brush primitives leaves its second brace, which then ends the entity; the one behind it is an error.
In the other formats the same map is read. -/
theorem region_primitive_breaks :
    loadMap exEnv (regionText true) = .error ∧ loadMap exEnv (regionText false) = .ok [⟨[], []⟩] := by
  constructor <;> decide +kernel

/-- With `_omitbrushes` a brush is skipped up to the first brace, so that a brush primitive ends the entity, and its last brace is
an error. -/
theorem omit_primitive_breaks :
    loadMap exEnv (txt "{\n\"_omitbrushes\" \"1\"\n{\nbrushDef\n{\n( 0 0 0 ) ( 0 1 0 ) ( 1 0 0 ) ( ( 1 0 0 ) ( 0 1 0 ) ) a\n}\n}\n}\n") = .error ∧
    loadMap exEnv (txt "{\n\"_omitbrushes\" \"1\"\n{\n( 0 0 0 ) ( 0 1 0 ) ( 1 0 0 ) a 0 0 0 1 1\n}\n}\n") =
      .ok [⟨[(omitKey, [49])], []⟩] := by
  constructor <;> decide +kernel

/-- `_omitbrushes` behind the first brush has no effect. -/
theorem omit_late :
    loadMap exEnv (txt "{\n{\n( 0 0 0 ) ( 0 1 0 ) ( 1 0 0 ) a 8 -16 90 1 -1\n}\n\"_omitbrushes\" \"1\"\n}\n") =
      .ok [⟨[(omitKey, [49])], [[exFace]]⟩] := by
  decide +kernel

/-! ### C149 -/

/-- **C149**: reading a map file never goes beyond the bytes of the file, and it ends, whatever is in it, if each word, comment
and quoted string in it is ended and trimming a key is defined. Missing: texts that end in the middle of one, and keys that are
empty or white space, for which it is false (`no_newline_ub`, `empty_key_ub`). -/
theorem load_in_bounds_partial (env : Env N) (hr : Reads env) (hkey : ∀ k, env.key k ≠ .ub) (text : Str) (h : Lex text) :
    loadMap env text ≠ .ub := by
  have := ents_fwd hr hkey (text.length + 1) false [] (Parser.ofFile text) h (Nat.lt_succ_self _)
  intro hc
  rw [loadMap] at hc
  rw [hc] at this
  exact this

/-- The code with an error where a key cannot be trimmed. -/
def checked (env : Env N) : Env N := { env with key := fun k => if trimKey k = .ub then .error else trimKey k }

/-- **C149**: trimming is the only other thing that can go wrong. Were a key that cannot be trimmed an error, reading such a text
would always be defined. -/
theorem load_in_bounds_but_keys_partial (env : Env N) (hr : Reads env) (text : Str) (h : Lex text) :
    loadMap (checked env) text ≠ .ub := by
  refine load_in_bounds_partial (checked env) ⟨hr.read, hr.readU, hr.readI⟩ ?_ text h
  intro k
  simp only [checked]
  split
  · simp
  · assumption

/-- White space in the sense of `isspace`. -/
def Space (b : UInt8) : Prop := b = 32 ∨ (9 ≤ b ∧ b ≤ 13)

theorem isSpace_true {b : UInt8} (h : Space b) : EntData.isSpace b = .ok true := by
  have h128 : ¬ (128 ≤ b) := by
    rw [UInt8.not_le]
    rcases h with rfl | ⟨-, h⟩
    · decide
    · exact UInt8.lt_of_le_of_lt h (by decide)
  rcases h with rfl | ⟨h1, h2⟩
  · decide
  · simp [EntData.isSpace, h128, h1, h2]

theorem trimEnd_space (k : Str) (hl : ∃ b, k.getLast? = some b ∧ EntData.Ink b) : ∀ (n : Nat) (ws : Str) (_ : ws.length ≤ n) (_ : ∀ b ∈ ws, Space b),
    trimEnd (n + 1) (k ++ ws) = .ok k := by
  intro n
  induction n with
  | zero =>
    intro ws hw _
    have : ws = [] := List.length_eq_zero_iff.1 (by omega)
    subst this
    simpa using trimEnd_ok hl 0
  | succ n ih =>
    intro ws hw hs
    rcases List.eq_nil_or_concat ws with rfl | ⟨u, b, rfl⟩
    · simpa using trimEnd_ok hl (n + 1)
    · rw [trimEnd]
      have e : (k ++ (u ++ [b])).getLast? = some b := by simp
      have e2 : (k ++ (u ++ [b])).dropLast = k ++ u := by rw [← List.append_assoc, List.dropLast_concat]
      simp only [List.concat_eq_append, e, isSpace_true (hs b (by simp)), Outcome.ok_bind, if_true, e2]
      exact ih u (by simpa using hw) (fun c hc => hs c (by simp [hc]))

theorem trimFront_space (k : Str) (hf : ∃ b, k.head? = some b ∧ EntData.Ink b) (x : Str) : ∀ (ws : Str) (_ : ∀ b ∈ ws, Space b),
    EntData.trimFront (ws ++ (k ++ x)) = .ok (k ++ x) := by
  intro ws
  induction ws with
  | nil =>
    intro _
    obtain ⟨b, hb, hi⟩ := hf
    exact trimFront_ok ⟨b, by cases k with
      | nil => simp at hb
      | cons => simpa using hb, hi⟩
  | cons c ws ih =>
    intro hs
    have := ih (fun d hd => hs d (by simp [hd]))
    simp [EntData.trimFront, isSpace_true (hs c (by simp)), this]

/-- **C149**: of a key with white space around it the white space is removed, at both ends. -/
theorem key_trimmed (ws k ws' : Str) (hws : ∀ b ∈ ws, Space b) (hws' : ∀ b ∈ ws', Space b) (hf : ∃ b, k.head? = some b ∧ EntData.Ink b)
    (hl : ∃ b, k.getLast? = some b ∧ EntData.Ink b) : trimKey (ws ++ k ++ ws') = .ok k := by
  rw [List.append_assoc, trimKey, trimFront_space k hf ws' ws hws, Outcome.ok_bind]
  exact trimEnd_space k hl _ ws' (by simp) hws'

/-- **C149** fails for a key that is empty or white space: the first character of an empty string is asked for. -/
theorem blank_key_ub (ws : Str) (hws : ∀ b ∈ ws, Space b) : trimKey ws = .ub := by
  have : EntData.trimFront ws = .ub := by
    induction ws with
    | nil => rfl
    | cons c ws ih =>
      simp [EntData.trimFront, isSpace_true (hws c (by simp)), ih (fun d hd => hws d (by simp [hd]))]
  simp [trimKey, this]

/-- The file `{⏎"" "x"⏎}⏎` does that. -/
theorem empty_key_ub : loadMap exEnv (txt "{\n\"\" \"x\"\n}\n") = .ub := by decide +kernel

/-- **C149** fails for a file that does not end in a blank. -/
theorem no_newline_ub : loadMap exEnv (txt "{\n}") = .ub := by decide +kernel

-- `{⏎"k" "v"⏎}⏎` is such a text
example : Lex (txt "{\n\"k\" \"v\"\n}\n") := by
  refine .word (w := [123]) (b := 10) (t := txt "\"k\" \"v\"\n}\n") (by decide) (by decide) (by decide) (by decide) (by decide) (.inl (by decide))
    (.blank (.inl (by decide)) (.quoted (tok := [107]) (t := txt " \"v\"\n}\n") (by decide +kernel) (.blank (.inl (by decide))
      (.quoted (tok := [118]) (t := txt "\n}\n") (by decide +kernel) (.blank (.inl (by decide)) (.word (w := [125]) (b := 10) (t := []) (by decide) (by decide)
        (by decide) (by decide) (by decide) (.inl (by decide)) (.blank (.inl (by decide)) .nil)))))))
example : Reads exEnv := ⟨fun t => by simp only [exEnv, rd]; repeat' split
                                      all_goals simp, fun t => by simp only [exEnv, rd]; repeat' split
                                                                  all_goals simp, fun t => by simp only [exEnv, rd]; repeat' split
                                                                                              all_goals simp⟩
-- a key ` a b ⏎`
example : trimKey [32, 97, 32, 98, 32, 10] = .ok [97, 32, 98] :=
  key_trimmed [32] [97, 32, 98] [32, 10] (by unfold Space; decide) (by unfold Space; decide) ⟨97, rfl, by unfold EntData.Ink; decide⟩
    ⟨98, rfl, by unfold EntData.Ink; decide⟩

end Verif.MapText
