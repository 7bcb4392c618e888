import Verif.WalJson.Lemmas

/-! C241: metadata of textures in `.wal_json` files. -/

namespace Verif.WalJson

open Verif.EntData (Str)

variable {File : Type} (w : World File)

/-- The values that a `.wal_json` file changes are those of a `.wal` file at this path, or 0. -/
def Base (name : Str) (m : Meta) : Prop :=
  (∃ f, w.files (walPath name) = some f ∧ w.wal (walPath name) f = some m) ∨
    ((∀ f, w.files (walPath name) = some f → w.wal (walPath name) f = none) ∧
      m.width = 0 ∧ m.height = 0 ∧ m.color = none ∧ m.flags = 0 ∧ m.contents = 0 ∧ m.value = 0 ∧ m.animation = [])

theorem startMeta_base (name : Str) : Base w name (startMeta w name) := by
  unfold Base
  cases h : w.files (walPath name) with
  | none =>
    have e : startMeta w name = empty name := by simp [startMeta, h]
    rw [e]
    exact .inr ⟨fun f h => by simp at h, rfl, rfl, rfl, rfl, rfl, rfl, rfl⟩
  | some f =>
    cases h' : w.wal (walPath name) f with
    | none =>
      have e : startMeta w name = empty name := by simp [startMeta, h, h']
      rw [e]
      exact .inr ⟨fun g hg => by cases hg; exact h', rfl, rfl, rfl, rfl, rfl, rfl, rfl⟩
    | some m =>
      have e : startMeta w name = m := by simp [startMeta, h, h']
      rw [e]
      exact .inl ⟨f, rfl, h'⟩

theorem jsonMeta_some {name : Str} {file : File} {m : Meta} (h : jsonMeta w name file = some m) :
    ∃ j c, w.parse file = some j ∧ jsonColor j (startMeta w name).color = some c ∧
      m = { startMeta w name with
            width := intMember j "width" (startMeta w name).width
            height := intMember j "height" (startMeta w name).height
            value := intMember j "value" (startMeta w name).value
            contents := jsonContents w.contentsNamed j (startMeta w name).contents
            flags := jsonFlags w.flagsNamed j (startMeta w name).flags
            animation := jsonAnimation j (startMeta w name).animation
            color := c } := by
  unfold jsonMeta at h
  cases hj : w.parse file with
  | none => rw [hj] at h; cases h
  | some j =>
    rw [hj] at h
    simp only [Option.bind_some, Option.map_eq_some_iff] at h
    obtain ⟨c, hc, rfl⟩ := h
    exact ⟨j, c, rfl, hc, rfl⟩

/-- **C241**: numbers that are given. -/
theorem numbers_given {name : Str} {file : File} {m : Meta} {j : Json} (h : jsonMeta w name file = some m)
    (hj : w.parse file = some j) (n : Int) :
    (Has j "width" (.int n) → m.width = BitVec.ofInt 32 n) ∧ (Has j "height" (.int n) → m.height = BitVec.ofInt 32 n) ∧
      (Has j "value" (.int n) → m.value = BitVec.ofInt 32 n) := by
  obtain ⟨j', c, h1, _, rfl⟩ := jsonMeta_some w h
  rw [hj] at h1
  cases h1
  refine ⟨?_, ?_, ?_⟩ <;> intro hm <;> simp [intMember, member_has hm]

/-- **C241**: the next texture that is given. -/
theorem animation_given {name : Str} {file : File} {m : Meta} {j : Json} (h : jsonMeta w name file = some m)
    (hj : w.parse file = some j) (s : Str) (hs : Has j "animation" (.str s)) : m.animation = s := by
  obtain ⟨j', c, h1, _, rfl⟩ := jsonMeta_some w h
  rw [hj] at h1
  cases h1
  simp [jsonAnimation, member_has hs]

/-- **C241**: contents that are given: the bits of a number, of a name, or of all elements of an array, and no others. -/
theorem contents_given {name : Str} {file : File} {m : Meta} {j v : Json} (h : jsonMeta w name file = some m)
    (hj : w.parse file = some j) (hv : Has j "contents" v) (hok : Valid v) (i : Nat) :
    m.contents.getLsbD i = true ↔ BitsGiven w.contentsNamed i v := by
  obtain ⟨j', c, h1, _, rfl⟩ := jsonMeta_some w h
  rw [hj] at h1
  cases h1
  simp only [jsonContents, member_has hv]
  cases v with
  | int n => rfl
  | str s => rfl
  | arr l => simp [orAll_bit, BitsGiven]
  | _ => exact hok.elim

/-- **C241**, partial: flags that are given by a number or a name. Missing: arrays, to which the flags of the `.wal` are added
(`flags_array`). -/
theorem flags_given_partial {name : Str} {file : File} {m : Meta} {j v : Json} (h : jsonMeta w name file = some m)
    (hj : w.parse file = some j) (hv : Has j "flags" v) (hok : Valid v) (ha : ∀ l, v ≠ .arr l) (i : Nat) :
    m.flags.getLsbD i = true ↔ BitsGiven w.flagsNamed i v := by
  obtain ⟨j', c, h1, _, rfl⟩ := jsonMeta_some w h
  rw [hj] at h1
  cases h1
  simp only [jsonFlags, member_has hv]
  cases v with
  | int n => rfl
  | str s => rfl
  | arr l => exact absurd rfl (ha l)
  | _ => exact hok.elim

/-- **C241**: an array of flags. -/
theorem flags_array {name : Str} {file : File} {m : Meta} {j : Json} {l : List Json} (h : jsonMeta w name file = some m)
    (hj : w.parse file = some j) (hv : Has j "flags" (.arr l)) :
    ∃ b, Base w name b ∧ ∀ i, m.flags.getLsbD i = true ↔ b.flags.getLsbD i = true ∨ BitsGiven w.flagsNamed i (.arr l) := by
  obtain ⟨j', c, h1, _, rfl⟩ := jsonMeta_some w h
  rw [hj] at h1
  cases h1
  refine ⟨_, startMeta_base w name, fun i => ?_⟩
  simp only [jsonFlags, member_has hv, orAll_bit, BitsGiven]

/-- **C241**: a colour that is given. -/
theorem color_given {name : Str} {file : File} {m : Meta} {j : Json} {r g b : Int} {rest : List Json}
    (h : jsonMeta w name file = some m) (hj : w.parse file = some j)
    (hv : Has j "color" (.arr (.int r :: .int g :: .int b :: rest))) :
    m.color = some (BitVec.ofInt 8 r, BitVec.ofInt 8 g, BitVec.ofInt 8 b) := by
  obtain ⟨j', c, h1, h2, rfl⟩ := jsonMeta_some w h
  rw [hj] at h1
  cases h1
  simp [jsonColor, member_has hv, elemAt, byteOf] at h2
  simp [h2]

/-- **C241**: what is not given is that of the `.wal` file whose path is the name of the texture, or 0. -/
theorem not_given {name : Str} {file : File} {m : Meta} {j : Json} (h : jsonMeta w name file = some m)
    (hj : w.parse file = some j) :
    ∃ b, Base w name b ∧ (Lacks j "width" → m.width = b.width) ∧ (Lacks j "height" → m.height = b.height) ∧
      (Lacks j "value" → m.value = b.value) ∧ (Lacks j "contents" → m.contents = b.contents) ∧
      (Lacks j "flags" → m.flags = b.flags) ∧ (Lacks j "animation" → m.animation = b.animation) ∧
      (Lacks j "color" → m.color = b.color) := by
  obtain ⟨j', c, h1, h2, rfl⟩ := jsonMeta_some w h
  rw [hj] at h1
  cases h1
  refine ⟨_, startMeta_base w name, ?_, ?_, ?_, ?_, ?_, ?_, ?_⟩ <;> intro hl
  · simp [intMember, member_lacks hl]
  · simp [intMember, member_lacks hl]
  · simp [intMember, member_lacks hl]
  · simp [jsonContents, member_lacks hl]
  · simp [jsonFlags, member_lacks hl]
  · simp [jsonAnimation, member_lacks hl]
  · simp [jsonColor, member_lacks hl] at h2
    simp [h2]

/-- **C241**: every file with JSON is used, unless it has a colour that is not an array of three numbers. -/
theorem json_used (name : Str) (file : File) (j : Json) (hj : w.parse file = some j) :
    (∃ m, jsonMeta w name file = some m) ↔ Lacks j "color" ∨
      ∃ r g b rest, Has j "color" (.arr (r :: g :: b :: rest)) ∧ ∀ e ∈ [r, g, b], ∃ n, e = .int n ∨ e = .float n ∨ ∃ x, e = .bool x := by
  have hb : ∀ e, (∃ v, byteOf e = some v) ↔ ∃ n, e = .int n ∨ e = .float n ∨ ∃ x, e = .bool x := by
    intro e
    cases e <;> simp [byteOf]
  have hm : (∃ m, jsonMeta w name file = some m) ↔ ∃ c, jsonColor j (startMeta w name).color = some c := by
    unfold jsonMeta
    rw [hj]
    simp only [Option.bind_some, Option.map_eq_some_iff]
    constructor
    · rintro ⟨m, c, h, _⟩
      exact ⟨c, h⟩
    · rintro ⟨c, h⟩
      exact ⟨_, c, h, rfl⟩
  rw [hm]
  constructor
  · rintro ⟨c, hc⟩
    cases hk : member j "color" with
    | none =>
      left
      intro l hl kv hkv
      subst hl
      unfold member at hk
      simp only [Option.map_eq_none_iff, List.find?_eq_none] at hk
      simpa using hk kv hkv
    | some v =>
      right
      unfold jsonColor at hc
      rw [hk] at hc
      have hH : Has j "color" v := by
        unfold member at hk
        split at hk
        · rename_i l
          obtain ⟨kv, hf, rfl⟩ := Option.map_eq_some_iff.mp hk
          obtain ⟨h1, a, b, rfl, h2⟩ := List.find?_eq_some_iff_append.mp hf
          have h1 : kv.1 = text "color" := by simpa using h1
          exact ⟨a, b, by rw [← h1], fun x hx => by simpa using h2 x hx⟩
        · cases hk
      simp only [Option.bind_eq_bind, Option.bind_eq_some_iff] at hc
      obtain ⟨r', ⟨r, hr, hr'⟩, g', ⟨g, hg, hg'⟩, b', ⟨b, hb', hb''⟩, _⟩ := hc
      cases v with
      | arr l =>
        simp only [elemAt] at hr hg hb'
        match l, hr, hg, hb' with
        | _ :: _ :: _ :: rest, hr, hg, hb' =>
          simp at hr hg hb'
          subst hr hg hb'
          refine ⟨_, _, _, rest, hH, fun e he => ?_⟩
          rw [← hb]
          simp only [List.mem_cons, List.not_mem_nil, or_false] at he
          rcases he with rfl | rfl | rfl
          · exact ⟨_, hr'⟩
          · exact ⟨_, hg'⟩
          · exact ⟨_, hb''⟩
      | _ => cases hr
  · rintro (h | ⟨r, g, b, rest, hH, h⟩)
    · exact ⟨_, by unfold jsonColor; rw [member_lacks h]⟩
    · obtain ⟨r', hr⟩ := (hb r).mpr (h r (by simp))
      obtain ⟨g', hg⟩ := (hb g).mpr (h g (by simp))
      obtain ⟨b', hb'⟩ := (hb b).mpr (h b (by simp))
      exact ⟨some (r', g', b'), by simp [jsonColor, member_has hH, elemAt, hr, hg, hb']⟩

/-- **C241**: the `.wal_json` file comes first, then the `.wal` file, in the directory of the game's textures. -/
theorem file_used (quake2 : Bool) (name : Str) :
    (∀ f m, w.files ((if quake2 then text "textures/" else []) ++ name ++ text ".wal_json") = some f →
      jsonMeta w name f = some m → textureMeta w quake2 name = some m) ∧
    ((∀ f, w.files ((if quake2 then text "textures/" else []) ++ name ++ text ".wal_json") = some f →
      jsonMeta w name f = none) →
      ∀ f, w.files ((if quake2 then text "textures/" else []) ++ name ++ text ".wal") = some f →
        textureMeta w quake2 name = w.wal name f) := by
  unfold textureMeta metaPath
  constructor
  · intro f m hf hm
    rw [hf, Option.bind_some, hm]
    rfl
  · intro h f hf
    have : (w.files ((if quake2 then text "textures/" else []) ++ name ++ text ".wal_json")).bind (jsonMeta w name) = none := by
      cases hk : w.files ((if quake2 then text "textures/" else []) ++ name ++ text ".wal_json") with
      | none => rfl
      | some g => exact h g hk
    rw [this, hf]
    rfl

/-- **C241**: the `.wal` file next to a `.wal_json` file is not read in Quake II, for its path starts with `textures/` and the path
that is read does not: without a file there, everything that the `.wal_json` file does not give is 0. -/
theorem wal_not_read (name : Str) (f : File) (m : Meta) (j : Json)
    (hf : w.files (text "textures/" ++ name ++ text ".wal_json") = some f) (hj : w.parse f = some j)
    (hm : jsonMeta w name f = some m) (hw : w.files (walPath name) = none) :
    textureMeta w true name = some m ∧ (Lacks j "flags" → m.flags = 0) ∧ (Lacks j "contents" → m.contents = 0) ∧
      (Lacks j "value" → m.value = 0) := by
  refine ⟨(file_used w true name).1 f m (by simpa using hf) hm, ?_⟩
  obtain ⟨b, hb, _, _, h3, h4, h5, _⟩ := not_given w hm hj
  rcases hb with ⟨g, hg, _⟩ | ⟨_, _, _, _, k1, k2, k3, _⟩
  · rw [hw] at hg
    cases hg
  · exact ⟨fun h => (h5 h).trans k1, fun h => (h4 h).trans k2, fun h => (h3 h).trans k3⟩

/-- Lava that emits light: `textures/e1u1/lava.wal` with flags and a value, and `textures/e1u1/lava.wal_json` with contents only. -/
def exampleWorld (json : Bool) : World Bool where
  files p :=
    if p = text "textures/e1u1/lava.wal" then some false
    else if p = text "textures/e1u1/lava.wal_json" ∧ json then some true else none
  parse f := if f then some (.obj [(text "contents", .str (text "LAVA"))]) else none
  wal name f := if f then none else some ⟨name, 64, 64, none, 9, 16, 300, []⟩
  contentsNamed _ := 8
  flagsNamed _ := 0

/-- **C241**: with the file that only changes the contents, the lava has lost its light. -/
theorem light_lost :
    (textureMeta (exampleWorld false) true (text "e1u1/lava")).map (fun m => (m.flags, m.value, m.contents)) =
      some (9, 300, 16) ∧
    (textureMeta (exampleWorld true) true (text "e1u1/lava")).map (fun m => (m.flags, m.value, m.contents)) =
      some (0, 0, 8) := by
  constructor <;> decide +kernel

example : Has (.obj [(text "value", .int 5), (text "flags", .arr [.str (text "SKY"), .int 16])]) "flags"
    (.arr [.str (text "SKY"), .int 16]) :=
  ⟨[(text "value", .int 5)], [], rfl, by
    intro kv h
    simp only [List.mem_singleton] at h
    subst h
    decide +kernel⟩

end Verif.WalJson
