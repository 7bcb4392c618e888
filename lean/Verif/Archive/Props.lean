import Verif.Archive.Lemmas

/-!
C127, C128: reading files from pak and wad archives.
-/

namespace Verif.Archive

open Verif
open Verif.Cmdlib (Str)
open Verif.Cmdlib.Spec (SameText)

theorem magic_pak : ascii "PACK" = [0x50, 0x41, 0x43, 0x4b] := by decide +kernel
theorem magic_wad2 : ascii "WAD2" = [0x57, 0x41, 0x44, 0x32] := by decide +kernel
theorem magic_wad3 : ascii "WAD3" = [0x57, 0x41, 0x44, 0x33] := by decide +kernel

theorem openPak_sound {bytes : List Byte} (h : PakSound bytes) :
    ∃ q, openPak bytes = .ok ⟨build [] (pakDirectory bytes), ⟨bytes, q, false⟩⟩ := by
  obtain ⟨hl, hm, hd⟩ := h
  refine ⟨u32At bytes 4 + pakLayout.width * (u32At bytes 8 / 64), ?_⟩
  unfold openPak
  simp only [get_in (show 0 + 4 ≤ bytes.length by omega), get_in (show 0 + 4 + 4 ≤ bytes.length by omega),
    get_in (show 0 + 4 + 4 + 4 ≤ bytes.length by omega), use, Outcome.ok_bind, hm, magic_pak, ne_eq,
    not_true_eq_false, if_false, seek_ok]
  have := entries_sound (pak_round bytes) (u32At bytes 8 / 64) [] (u32At bytes 4) hd
  simp only [u32At, Nat.zero_add, Nat.reduceAdd] at this ⊢
  rw [this]
  rfl

theorem openPak_other {bytes : List Byte} (h : ¬ PakSound bytes) :
    openPak bytes = if 4 ≤ bytes.length ∧ slice bytes 0 4 ≠ [0x50, 0x41, 0x43, 0x4b] then .error else .ub := by
  unfold openPak
  by_cases h4 : 4 ≤ bytes.length
  · by_cases hm : slice bytes 0 4 = [0x50, 0x41, 0x43, 0x4b]
    · rw [if_neg (by simp [hm])]
      simp only [get_in (show 0 + 4 ≤ bytes.length by omega), use, Outcome.ok_bind, hm, magic_pak, ne_eq,
        not_true_eq_false, if_false]
      by_cases h8 : 0 + 4 + 4 ≤ bytes.length
      · simp only [get_in h8, Outcome.ok_bind]
        by_cases h12 : 0 + 4 + 4 + 4 ≤ bytes.length
        · simp only [get_in h12, Outcome.ok_bind, seek_ok]
          have hd : ¬ DirectorySound pakLayout bytes (u32At bytes 4) (u32At bytes 8 / 64) :=
            fun hd => h ⟨by omega, hm, hd⟩
          have := entries_unsound (pak_round bytes) _ [] _ hd
          simp only [u32At, Nat.zero_add, Nat.reduceAdd] at this ⊢
          rw [this]; rfl
        · obtain ⟨q, hq⟩ := get_out (bytes := bytes) (pos := 0 + 4 + 4) (n := 4) (by omega) (by omega)
          simp only [hq, Outcome.ub_bind]
      · obtain ⟨q, hq⟩ := get_out (bytes := bytes) (pos := 0 + 4) (n := 4) (by omega) (by omega)
        simp only [hq, Outcome.ub_bind]
    · rw [if_pos ⟨h4, hm⟩]
      simp only [get_in (show 0 + 4 ≤ bytes.length by omega), use, Outcome.ok_bind, magic_pak, ne_eq, hm,
        not_false_eq_true, if_true]
  · rw [if_neg (fun hh => h4 hh.1)]
    obtain ⟨q, hq⟩ := get_out (bytes := bytes) (pos := 0) (n := 4) (by omega) (by omega)
    simp only [hq, use, Outcome.ub_bind]

theorem openWad_sound {bytes : List Byte} (h : WadSound bytes) :
    ∃ q, openWad bytes = .ok ⟨build [] (wadDirectory bytes), ⟨bytes, q, false⟩⟩ := by
  obtain ⟨hl, hm, hd⟩ := h
  refine ⟨u32At bytes 8 + wadLayout.width * u32At bytes 4, ?_⟩
  unfold openWad
  have hcond : ¬ (slice bytes 0 4 ≠ [0x57, 0x41, 0x44, 0x32] ∧ slice bytes 0 4 ≠ [0x57, 0x41, 0x44, 0x33]) := by
    rintro ⟨h1, h2⟩
    rcases hm with hm | hm
    · exact h1 hm
    · exact h2 hm
  simp only [get_in (show 0 + 4 ≤ bytes.length by omega), get_in (show 0 + 4 + 4 ≤ bytes.length by omega),
    get_in (show 0 + 4 + 4 + 4 ≤ bytes.length by omega), use, Outcome.ok_bind, magic_wad2, magic_wad3, seek_ok]
  rw [if_neg hcond]
  have := entries_sound (wad_round bytes) (u32At bytes 4) [] (u32At bytes 8) hd
  simp only [u32At, Nat.zero_add, Nat.reduceAdd] at this ⊢
  rw [this]
  rfl

theorem openWad_other {bytes : List Byte} (h : ¬ WadSound bytes) :
    openWad bytes = if 4 ≤ bytes.length ∧ slice bytes 0 4 ≠ [0x57, 0x41, 0x44, 0x32] ∧
      slice bytes 0 4 ≠ [0x57, 0x41, 0x44, 0x33] then .error else .ub := by
  unfold openWad
  by_cases h4 : 4 ≤ bytes.length
  · by_cases hm : slice bytes 0 4 ≠ [0x57, 0x41, 0x44, 0x32] ∧ slice bytes 0 4 ≠ [0x57, 0x41, 0x44, 0x33]
    · rw [if_pos ⟨h4, hm⟩]
      simp only [get_in (show 0 + 4 ≤ bytes.length by omega), use, Outcome.ok_bind, magic_wad2, magic_wad3]
      rw [if_pos hm]
    · rw [if_neg (fun hh => hm hh.2)]
      simp only [get_in (show 0 + 4 ≤ bytes.length by omega), use, Outcome.ok_bind, magic_wad2, magic_wad3]
      rw [if_neg hm]
      by_cases h8 : 0 + 4 + 4 ≤ bytes.length
      · simp only [get_in h8, Outcome.ok_bind]
        by_cases h12 : 0 + 4 + 4 + 4 ≤ bytes.length
        · simp only [get_in h12, Outcome.ok_bind, seek_ok]
          have hm' : slice bytes 0 4 = [0x57, 0x41, 0x44, 0x32] ∨ slice bytes 0 4 = [0x57, 0x41, 0x44, 0x33] := by
            by_contra hc
            push Not at hc
            exact hm hc
          have hd : ¬ DirectorySound wadLayout bytes (u32At bytes 8) (u32At bytes 4) :=
            fun hd => h ⟨by omega, hm', hd⟩
          have := entries_unsound (wad_round bytes) _ [] _ hd
          simp only [u32At, Nat.zero_add, Nat.reduceAdd] at this ⊢
          rw [this]; rfl
        · obtain ⟨q, hq⟩ := get_out (bytes := bytes) (pos := 0 + 4 + 4) (n := 4) (by omega) (by omega)
          simp only [hq, Outcome.ub_bind]
      · obtain ⟨q, hq⟩ := get_out (bytes := bytes) (pos := 0 + 4) (n := 4) (by omega) (by omega)
        simp only [hq, Outcome.ub_bind]
  · rw [if_neg (fun hh => h4 hh.1)]
    obtain ⟨q, hq⟩ := get_out (bytes := bytes) (pos := 0) (n := 4) (by omega) (by omega)
    simp only [hq, use, Outcome.ub_bind]

/-! ### C127: loading from an archive gives the bytes its directory names -/

/-- C127, paks. A pak with a sound directory whose files all lie within it can be opened; it contains the names in
its directory, in any case of letters, and every load, after any number of other loads, gives exactly the bytes of
the last entry with that name. -/
theorem pak_faithful (bytes : List Byte) (h : PakSound bytes) (hw : ∀ e ∈ pakDirectory bytes, Within bytes e) :
    ∃ p, openPak bytes = .ok p ∧ Faithful bytes (pakDirectory bytes) p := by
  obtain ⟨q, hq⟩ := openPak_sound h
  exact ⟨_, hq, faithful_of rfl ⟨rfl, rfl⟩ hw (directory_noNul _ _ _ _)⟩

/-- C127, wads: likewise; the size is the size on disk. -/
theorem wad_faithful (bytes : List Byte) (h : WadSound bytes) (hw : ∀ e ∈ wadDirectory bytes, Within bytes e) :
    ∃ p, openWad bytes = .ok p ∧ Faithful bytes (wadDirectory bytes) p := by
  obtain ⟨q, hq⟩ := openWad_sound h
  exact ⟨_, hq, faithful_of rfl ⟨rfl, rfl⟩ hw (directory_noNul _ _ _ _)⟩

/-- A text as a field of `n` bytes. -/
def field (n : Nat) (s : String) : List Byte := ascii s ++ List.replicate (n - (ascii s).length) 0

/-- A pak with two files and three entries; the third takes the place of the first. -/
def twoFiles : List Byte :=
  ascii "PACK" ++ leEncode 4 16 ++ leEncode 4 192 ++ [1, 2, 3, 4] ++
    field 56 "maps/a.bsp" ++ leEncode 4 12 ++ leEncode 4 1 ++
    field 56 "gfx/b" ++ leEncode 4 13 ++ leEncode 4 2 ++
    field 56 "MAPS/A.bsp" ++ leEncode 4 14 ++ leEncode 4 2

def str (s : String) : Str := s.toUTF8.toList

example : PakSound twoFiles ∧ (∀ e ∈ pakDirectory twoFiles, Within twoFiles e) ∧
    Latest (pakDirectory twoFiles) (str "maps/A.BSP") ⟨str "MAPS/A.bsp", 14, 2⟩ := by
  have hu : u32At twoFiles 4 = 16 ∧ u32At twoFiles 8 / 64 = 3 := by decide +kernel
  have hdir : pakDirectory twoFiles =
      [⟨str "maps/a.bsp", 12, 1⟩, ⟨str "gfx/b", 13, 2⟩] ++ ⟨str "MAPS/A.bsp", 14, 2⟩ :: [] := by decide +kernel
  refine ⟨⟨by decide +kernel, by decide +kernel, ?_⟩, ?_, ?_⟩
  · rw [hu.1, hu.2]
    intro i hi
    have hall : ∀ i < 3, 16 + pakLayout.width * (i + 1) ≤ twoFiles.length ∧
        (0 : Byte) ∈ slice twoFiles (16 + pakLayout.width * i + pakLayout.nameAt) pakLayout.nameLen := by
      decide +kernel
    exact hall i hi
  · rw [hdir]
    have hl : twoFiles.length = 208 := by decide +kernel
    intro e he
    simp only [List.cons_append, List.nil_append, List.mem_cons, List.not_mem_nil, or_false] at he
    rcases he with rfl | rfl | rfl <;> simp [Within, hl]
  · refine ⟨_, _, hdir, ?_, by simp⟩
    rw [Cmdlib.sameText_iff]
    decide +kernel

/-- A wad with one texture. -/
def oneLump : List Byte :=
  ascii "WAD3" ++ leEncode 4 1 ++ leEncode 4 12 ++
    leEncode 4 44 ++ leEncode 4 3 ++ leEncode 4 3 ++ [68, 0, 0, 0] ++ field 16 "sky1" ++ [7, 8, 9]

example : WadSound oneLump ∧ (∀ e ∈ wadDirectory oneLump, Within oneLump e) ∧
    Latest (wadDirectory oneLump) (str "SKY1") ⟨str "sky1", 44, 3⟩ := by
  have hu : u32At oneLump 8 = 12 ∧ u32At oneLump 4 = 1 := by decide +kernel
  have hdir : wadDirectory oneLump = [] ++ ⟨str "sky1", 44, 3⟩ :: [] := by decide +kernel
  refine ⟨⟨by decide +kernel, by decide +kernel, ?_⟩, ?_, ?_⟩
  · rw [hu.1, hu.2]
    intro i hi
    have hall : ∀ i < 1, 12 + wadLayout.width * (i + 1) ≤ oneLump.length ∧
        (0 : Byte) ∈ slice oneLump (12 + wadLayout.width * i + wadLayout.nameAt) wadLayout.nameLen := by
      decide +kernel
    exact hall i hi
  · rw [hdir]
    have hl : oneLump.length = 47 := by decide +kernel
    intro e he
    simp only [List.nil_append, List.mem_cons, List.not_mem_nil, or_false] at he
    subst he
    simp [Within, hl]
  · refine ⟨_, _, hdir, ?_, by simp⟩
    rw [Cmdlib.sameText_iff]
    decide +kernel

/-! ### C128: damaged archives -/

/-- C128, the claim: opening any file as a pak or wad either works or is refused. -/
def OpensSafely : Prop := ∀ bytes, openPak bytes ≠ .ub ∧ openWad bytes ≠ .ub

/-- C128, first negation: a pak cut off after its magic number is not refused; its header is used although it was
never read. -/
theorem truncated_pak_ub : ¬ OpensSafely := by
  intro h
  exact (h (ascii "PACK")).1 (by decide +kernel)

/-- A wad with one texture whose name takes all 16 bytes of its field. -/
def longName : List Byte :=
  ascii "WAD2" ++ leEncode 4 1 ++ leEncode 4 12 ++
    leEncode 4 44 ++ leEncode 4 3 ++ leEncode 4 3 ++ [68, 0, 0, 0] ++ field 16 "abcdefghijklmnop" ++ [7, 8, 9]

/-- C128, second negation: a name that fills its field is read past its end, in a wad that lies whole on disk. -/
theorem long_name_ub : openWad longName = .ub := by decide +kernel

/-- C128, what holds. A pak opens exactly if its header and directory lie within the file and its names are
terminated; a file whose first four bytes are not those of a pak is refused. -/
theorem open_pak_partial (bytes : List Byte) :
    ((∃ p, openPak bytes = .ok p) ↔ PakSound bytes) ∧
    (openPak bytes = .error ↔ 4 ≤ bytes.length ∧ slice bytes 0 4 ≠ [0x50, 0x41, 0x43, 0x4b]) := by
  by_cases h : PakSound bytes
  · obtain ⟨q, hq⟩ := openPak_sound h
    refine ⟨⟨fun _ => h, fun _ => ⟨_, hq⟩⟩, ?_⟩
    rw [hq]
    exact ⟨fun h => (by cases h), fun hh => absurd h.2.1 hh.2⟩
  · have := openPak_other h
    by_cases hm : 4 ≤ bytes.length ∧ slice bytes 0 4 ≠ [0x50, 0x41, 0x43, 0x4b]
    · rw [if_pos hm] at this
      rw [this]
      exact ⟨⟨fun ⟨_, e⟩ => (by cases e), fun hh => absurd hh h⟩, ⟨fun _ => hm, fun _ => rfl⟩⟩
    · rw [if_neg hm] at this
      rw [this]
      exact ⟨⟨fun ⟨_, e⟩ => (by cases e), fun hh => absurd hh h⟩, ⟨fun e => (by cases e), fun hh => absurd hh hm⟩⟩

/-- C128, what holds, for wads. -/
theorem open_wad_partial (bytes : List Byte) :
    ((∃ p, openWad bytes = .ok p) ↔ WadSound bytes) ∧
    (openWad bytes = .error ↔ 4 ≤ bytes.length ∧ slice bytes 0 4 ≠ [0x57, 0x41, 0x44, 0x32] ∧
      slice bytes 0 4 ≠ [0x57, 0x41, 0x44, 0x33]) := by
  by_cases h : WadSound bytes
  · obtain ⟨q, hq⟩ := openWad_sound h
    refine ⟨⟨fun _ => h, fun _ => ⟨_, hq⟩⟩, ?_⟩
    rw [hq]
    exact ⟨fun h => (by cases h), fun hh => by rcases h.2.1 with hm | hm; exacts [absurd hm hh.2.1, absurd hm hh.2.2]⟩
  · have := openWad_other h
    by_cases hm : 4 ≤ bytes.length ∧ slice bytes 0 4 ≠ [0x57, 0x41, 0x44, 0x32] ∧
      slice bytes 0 4 ≠ [0x57, 0x41, 0x44, 0x33]
    · rw [if_pos hm] at this
      rw [this]
      exact ⟨⟨fun ⟨_, e⟩ => (by cases e), fun hh => absurd hh h⟩, ⟨fun _ => hm, fun _ => rfl⟩⟩
    · rw [if_neg hm] at this
      rw [this]
      exact ⟨⟨fun ⟨_, e⟩ => (by cases e), fun hh => absurd hh h⟩, ⟨fun e => (by cases e), fun hh => absurd hh hm⟩⟩

example : PakSound twoFiles ↔ ∃ p, openPak twoFiles = .ok p := ((open_pak_partial twoFiles).1).symm

/-- A pak whose second file was cut off; the first lies whole in it. -/
def cutPak : List Byte :=
  ascii "PACK" ++ leEncode 4 13 ++ leEncode 4 128 ++ [1] ++
    field 56 "a" ++ leEncode 4 12 ++ leEncode 4 1 ++
    field 56 "b" ++ leEncode 4 140 ++ leEncode 4 4

/-- C128, third negation: loading a file that is cut off spoils every later load from that archive. Here `a`, which
is intact, reads as `1` at first, and as zero once `b` has been loaded. -/
theorem cut_file_spoils_others : ∃ p, openPak cutPak = .ok p ∧
    (p.load (str "a")).1 = some [1] ∧ ((p.load (str "b")).2.load (str "a")).1 = some [0] := by
  have hu : u32At cutPak 4 = 13 ∧ u32At cutPak 8 / 64 = 2 := by decide +kernel
  have hs : PakSound cutPak := by
    refine ⟨by decide +kernel, by decide +kernel, ?_⟩
    rw [hu.1, hu.2]
    intro i hi
    have hall : ∀ i < 2, 13 + pakLayout.width * (i + 1) ≤ cutPak.length ∧
        (0 : Byte) ∈ slice cutPak (13 + pakLayout.width * i + pakLayout.nameAt) pakLayout.nameLen := by
      decide +kernel
    exact hall i hi
  obtain ⟨q, hq⟩ := openPak_sound hs
  refine ⟨_, hq, ?_, ?_⟩
  · have hf : find (build [] (pakDirectory cutPak)) (str "a") = some (12, 1) := by decide +kernel
    unfold Pack.load
    simp only [hf, seek_ok]
    rw [read_in (by decide +kernel)]
    decide +kernel
  · have ha : find (build [] (pakDirectory cutPak)) (str "a") = some (12, 1) := by decide +kernel
    have hb : find (build [] (pakDirectory cutPak)) (str "b") = some (140, 4) := by decide +kernel
    unfold Pack.load
    simp only [hb, seek_ok]
    simp only [ha]
    decide +kernel

/-- C128, what holds of loads from a damaged archive: the result always has the size the directory names. -/
theorem load_size (p : Pack) (name : Str) (data : List Byte) (h : (p.load name).1 = some data) :
    ∃ offset, find p.files name = some (offset, data.length) := by
  unfold Pack.load at h
  cases hf : find p.files name with
  | none => simp [hf] at h
  | some v =>
    obtain ⟨offset, size⟩ := v
    simp only [hf, Option.some.injEq] at h
    refine ⟨offset, ?_⟩
    have hle : (((p.stream.seek offset).read size).1).length ≤ size := by
      unfold Stream.read
      split
      · simp
      · simp only [List.length_take]; omega
    rw [← h, List.length_append, List.length_replicate]
    congr 2
    omega

end Verif.Archive
