import Verif.Archive.WadModel
import Verif.Archive.Props

/-!
C132: textures extracted from a BSP file can be read back from the wad.
-/

namespace Verif.Archive

open Verif
open Verif.Cmdlib (Str cstr)
open Verif.Cmdlib.Spec (SameText)

/-- The name a texture has in the wad: its first 15 characters. -/
def shortName (t : Tex) : Str := (t.name.takeWhile (· ≠ 0)).take 15

/-- The texture holds a header, the picture and its three smaller copies, and nothing else, as textures in Quake
BSP files do. -/
def QuakeSized (t : Tex) : Prop := t.data.length = 40 + t.width * t.height / 64 * 85

/-! ### Slices -/

theorem slice_append_right (a b : List Byte) (off n : Nat) : slice (a ++ b) (a.length + off) n = slice b off n := by
  unfold slice
  rw [← List.drop_drop, List.drop_left]

theorem slice_append_left (a b : List Byte) (off n : Nat) (h : off + n ≤ a.length) :
    slice (a ++ b) off n = slice a off n := by
  unfold slice
  rw [List.drop_append_of_le_length (by omega), List.take_append_of_le_length (by simp; omega)]

theorem slice_all (a : List Byte) : slice a 0 a.length = a := by simp [slice]

theorem u32At_int32 (v : Nat) (h : v < 2 ^ 32) (rest : List Byte) : u32At (int32 v ++ rest) 0 = v := by
  unfold u32At
  have hl : (int32 v).length = 4 := by simp [int32]
  rw [slice_append_left _ _ _ _ (by omega)]
  have : slice (int32 v) 0 4 = int32 v := by
    have := slice_all (int32 v)
    rwa [hl] at this
  rw [this]
  unfold int32
  have hv : ((v : Int) % 2 ^ 32).toNat = v := by omega
  rw [hv]
  exact leDecode_leEncode_of_lt (by simpa using h)

/-! ### Names -/

theorem setName_length (old : List Byte) (name : Str) (h : old.length = 16) : (setName old name).length = 16 := by
  unfold setName
  simp only [List.length_append, List.length_map, List.length_take, List.length_singleton, List.length_drop, h]
  omega

theorem setName_zero (old : List Byte) (name : Str) : (0 : Byte) ∈ setName old name := by
  unfold setName
  simp

theorem textOf_setName (old : List Byte) (t : Tex) : textOf (setName old t.name) = shortName t := by
  have hne : ∀ b ∈ ((cstr t.name).take 15).map UInt8.toBitVec, b ≠ 0 := by
    intro b hb
    rw [List.mem_map] at hb
    obtain ⟨c, hc, rfl⟩ := hb
    have := cstr_mem (List.mem_of_mem_take hc)
    intro h0
    apply this
    exact UInt8.toBitVec_inj.mp h0
  unfold textOf setName shortName
  simp only [List.append_assoc, List.singleton_append]
  rw [List.takeWhile_append_of_pos (by intro b hb; simpa using hne b hb), List.takeWhile_cons]
  simp only [ne_eq, not_true_eq_false, decide_false, Bool.false_eq_true, if_false, List.append_nil, List.map_map]
  have : (UInt8.ofBitVec ∘ UInt8.toBitVec) = id := by funext x; rfl
  rw [this, List.map_id]
  rfl

theorem shortName_noNul (t : Tex) : (0 : UInt8) ∉ shortName t := by
  intro h
  exact cstr_mem (s := t.name) (List.mem_of_mem_take h) rfl

/-! ### The directory -/

/-- The entries the wad should have, its data starting at `pos`. -/
def wanted : List Tex → Nat → List Entry
  | [], _ => []
  | t :: ts, pos => ⟨shortName t, pos, t.data.length⟩ :: wanted ts (pos + t.data.length)

/-- The length of the data of some textures. -/
def total (ts : List Tex) : Nat := (ts.map (·.data.length)).sum

theorem lumpSize_quake (t : Tex) (h : QuakeSized t) (hw : t.width * t.height < 2 ^ 32)
    (hl : t.data.length < 2 ^ 31) : lumpSize t = t.data.length := by
  unfold lumpSize
  unfold QuakeSized at h
  rw [Nat.mod_eq_of_lt hw]
  have h1 : t.width * t.height / 64 * 85 % 2 ^ 32 = t.width * t.height / 64 * 85 := Nat.mod_eq_of_lt (by omega)
  rw [h1, ← h, Nat.mod_eq_of_lt (by omega), if_pos hl]

/-- The lump headers, one by one. -/
inductive Headers : List Tex → Nat → List (List Byte) → Prop
  | nil (pos) : Headers [] pos []
  | cons (t ts pos rec recs) (hl : rec.length = 32)
      (he : entryAt wadLayout rec 0 = ⟨shortName t, pos, t.data.length⟩)
      (hz : (0 : Byte) ∈ slice rec 16 16) (hr : Headers ts (pos + t.data.length) recs) :
      Headers (t :: ts) pos (rec :: recs)

theorem wadLumps_headers (ts : List Tex) : ∀ (pos : Nat) (name : List Byte), name.length = 16 →
    (∀ t ∈ ts.filter Tex.valid, QuakeSized t ∧ t.width * t.height < 2 ^ 32) →
    pos + total (ts.filter Tex.valid) < 2 ^ 31 →
    ∃ recs, wadLumps ts pos name = .ok recs.flatten ∧ Headers (ts.filter Tex.valid) pos recs := by
  induction ts with
  | nil => intro pos name _ _ _; exact ⟨[], rfl, .nil pos⟩
  | cons t ts ih =>
    intro pos name hn hq ht
    unfold wadLumps
    cases hv : t.valid with
    | false =>
      rw [List.filter_cons_of_neg (by simp [hv])] at hq ht ⊢
      simp only [Bool.not_false, if_true]
      exact ih pos name hn hq ht
    | true =>
      rw [List.filter_cons_of_pos (by simp [hv])] at hq ht ⊢
      simp only [total, List.map_cons, List.sum_cons] at ht
      have hqt := hq t (List.mem_cons_self ..)
      have hs := lumpSize_quake t hqt.1 hqt.2 (by omega)
      simp only [Bool.not_true, Bool.false_eq_true, if_false, hs]
      rw [if_neg (by omega)]
      obtain ⟨recs, hrec, hh⟩ := ih (pos + t.data.length) (setName name t.name) (setName_length _ _ hn)
        (fun t' ht' => hq t' (List.mem_cons_of_mem _ ht')) (by unfold total; omega)
      rw [show ((pos : Int) + (t.data.length : Int)) = ((pos + t.data.length : Nat) : Int) by omega, hrec]
      refine ⟨(int32 pos ++ int32 t.data.length ++ int32 t.data.length ++ [68, 0, 0, 0] ++ setName name t.name) :: recs,
        by simp only [Outcome.ok_bind, Outcome.pure_eq, List.flatten_cons], ?_⟩
      have hl4 : ∀ v : Int, (int32 v).length = 4 := fun v => by simp [int32]
      have hsl := setName_length name t.name hn
      have hname : slice (int32 pos ++ int32 t.data.length ++ int32 t.data.length ++ [68, 0, 0, 0] ++
          setName name t.name) 16 16 = setName name t.name := by
        have h16 : (int32 pos ++ int32 t.data.length ++ int32 t.data.length ++ [68, 0, 0, 0]).length = 16 := by
          simp [hl4]
        have := slice_append_right (int32 pos ++ int32 t.data.length ++ int32 t.data.length ++ [68, 0, 0, 0])
          (setName name t.name) 0 16
        rw [h16, Nat.add_zero] at this
        rw [this]
        have := slice_all (setName name t.name)
        rwa [hsl] at this
      refine .cons t _ pos _ recs ?_ ?_ ?_ hh
      · simp [hl4, hsl]
      · unfold entryAt
        simp only [wadLayout, Nat.zero_add]
        rw [hname, textOf_setName]
        have h1 : u32At (int32 pos ++ int32 t.data.length ++ int32 t.data.length ++ [68, 0, 0, 0] ++
            setName name t.name) 0 = pos := by
          simp only [List.append_assoc]
          exact u32At_int32 pos (by omega) _
        have h2 : u32At (int32 pos ++ int32 t.data.length ++ int32 t.data.length ++ [68, 0, 0, 0] ++
            setName name t.name) 4 = t.data.length := by
          simp only [List.append_assoc]
          have := slice_append_right (int32 (pos : Int)) (int32 (t.data.length : Int) ++ (int32 (t.data.length : Int) ++
            ([68, 0, 0, 0] ++ setName name t.name))) 0 4
          rw [hl4, Nat.add_zero] at this
          unfold u32At
          rw [this]
          exact u32At_int32 t.data.length (by omega) _
        rw [h1, h2]
      · rw [hname]
        exact setName_zero _ _

theorem entryAt_append (pre rec suf : List Byte) (hl : rec.length = 32) :
    entryAt wadLayout (pre ++ (rec ++ suf)) pre.length = entryAt wadLayout rec 0 := by
  have h : ∀ a k, a + k ≤ 32 → slice (pre ++ (rec ++ suf)) (pre.length + a) k = slice rec (0 + a) k := by
    intro a k hak
    rw [slice_append_right, slice_append_left _ _ _ _ (by omega), Nat.zero_add]
  unfold entryAt u32At
  simp only [wadLayout]
  rw [h 16 16 (by omega), h 0 4 (by omega), h 4 4 (by omega)]

theorem headers_directory {ts : List Tex} {pos : Nat} {recs : List (List Byte)} (h : Headers ts pos recs) :
    ∀ (pre suf : List Byte), directory wadLayout (pre ++ (recs.flatten ++ suf)) pre.length ts.length = wanted ts pos ∧
      DirectorySound wadLayout (pre ++ (recs.flatten ++ suf)) pre.length ts.length := by
  induction h with
  | nil pos =>
    intro pre suf
    exact ⟨rfl, fun i hi => absurd hi (by simp)⟩
  | cons t ts pos rec recs hl he hz hr ih =>
    intro pre suf
    have hih := ih (pre ++ rec) suf
    have happ : pre ++ ((rec :: recs).flatten ++ suf) = pre ++ (rec ++ (recs.flatten ++ suf)) := by simp
    have happ' : (pre ++ rec) ++ (recs.flatten ++ suf) = pre ++ (rec ++ (recs.flatten ++ suf)) := by simp
    rw [happ'] at hih
    have hpl : (pre ++ rec).length = pre.length + wadLayout.width := by simp [hl, wadLayout]
    rw [hpl] at hih
    rw [happ, List.length_cons, directory_succ, sound_succ, hih.1, entryAt_append _ _ _ hl, he]
    refine ⟨rfl, ⟨?_, ?_⟩, hih.2⟩
    · simp [hl, wadLayout]
    · simp only [wadLayout]
      rw [slice_append_right, slice_append_left _ _ _ _ (by omega)]
      exact hz

/-! ### The data -/

theorem wanted_append (l r : List Tex) (pos : Nat) : wanted (l ++ r) pos = wanted l pos ++ wanted r (pos + total l) := by
  induction l generalizing pos with
  | nil => simp [wanted, total]
  | cons t l ih => simp [wanted, ih, total, Nat.add_assoc]

theorem flatMap_length (l : List Tex) : (l.flatMap (·.data)).length = total l := by
  simp [total, List.length_flatMap]

theorem data_slice (pre : List Byte) (l r : List Tex) (t : Tex) :
    slice (pre ++ (l ++ t :: r).flatMap (·.data)) (pre.length + total l) t.data.length = t.data := by
  rw [List.flatMap_append, List.flatMap_cons, slice_append_right]
  have := slice_append_right (l.flatMap (·.data)) (t.data ++ r.flatMap (·.data)) 0 t.data.length
  rw [flatMap_length, Nat.add_zero] at this
  rw [this, slice_append_left _ _ _ _ (by omega), slice_all]

theorem wanted_within (ts : List Tex) : ∀ (pos n : Nat), pos + total ts ≤ n →
    ∀ e ∈ wanted ts pos, e.offset + e.size ≤ n := by
  induction ts with
  | nil => intro pos n _ e he; simp [wanted] at he
  | cons t ts ih =>
    intro pos n h e he
    simp only [total, List.map_cons, List.sum_cons] at h
    rcases List.mem_cons.mp he with rfl | he
    · simp only; omega
    · exact ih (pos + t.data.length) n (by unfold total; omega) e he

theorem wanted_mem (ts : List Tex) (pos : Nat) : ∀ e ∈ wanted ts pos, ∃ t ∈ ts, e.name = shortName t := by
  induction ts generalizing pos with
  | nil => intro e he; simp [wanted] at he
  | cons t ts ih =>
    intro e he
    rcases List.mem_cons.mp he with rfl | he
    · exact ⟨t, List.mem_cons_self .., rfl⟩
    · obtain ⟨t', ht', hn⟩ := ih _ e he
      exact ⟨t', List.mem_cons_of_mem _ ht', hn⟩

/-- C132, the claim: every texture with data, unless a later one has the same name in the wad, can be loaded from the
exported wad under its name, whatever has been loaded before, and has the same bytes as in the BSP file; other names
are not in the wad. -/
def ExtractsAll (texs : List Tex) : Prop :=
  ∃ bytes p, exportWad texs = .ok bytes ∧ openWad bytes = .ok p ∧ ∀ history,
    (∀ l t r, texs.filter Tex.valid = l ++ t :: r → (∀ t' ∈ r, ¬ SameText (shortName t') (shortName t)) →
      ((p.after history).load (shortName t)).1 = some t.data) ∧
    ∀ name, 0 ∉ name → (∀ t ∈ texs.filter Tex.valid, ¬ SameText (shortName t) name) →
      ((p.after history).load name).1 = none

/-- C132, for textures of the size Quake's have, in a wad below 2 GB. -/
theorem extract_textures_partial (texs : List Tex)
    (hq : ∀ t ∈ texs.filter Tex.valid, QuakeSized t ∧ t.width * t.height < 2 ^ 32)
    (hsize : 12 + 32 * (texs.filter Tex.valid).length + total (texs.filter Tex.valid) < 2 ^ 31) :
    ExtractsAll texs := by
  obtain ⟨recs, hrec, hh⟩ := wadLumps_headers texs (12 + (texs.filter Tex.valid).length * 32) (List.replicate 16 0)
    (by simp) hq (by omega)
  have hcount : ∀ {ts : List Tex} {pos : Nat} {recs : List (List Byte)}, Headers ts pos recs →
      recs.flatten.length = ts.length * 32 := by
    intro ts pos recs h
    induction h with
    | nil => rfl
    | cons t ts pos rec recs hl he hz hr ih =>
      simp only [List.flatten_cons, List.length_append, hl, ih, List.length_cons]
      omega
  have hreclen := hcount hh
  have hl4 : ∀ v : Int, (int32 v).length = 4 := fun v => by simp [int32]
  have ham : (ascii "WAD2").length = 4 := by decide +kernel
  let n := (texs.filter Tex.valid).length
  let hdr := ascii "WAD2" ++ int32 n ++ int32 12
  have hhdr : hdr.length = 12 := by simp [hdr, hl4, ham]
  let bytes := hdr ++ (recs.flatten ++ (texs.filter Tex.valid).flatMap (·.data))
  have hexp : exportWad texs = .ok bytes := by
    unfold exportWad
    simp only
    rw [show ((12 : Int) + ((texs.filter Tex.valid).length : Int) * 32) =
      ((12 + (texs.filter Tex.valid).length * 32 : Nat) : Int) by omega, hrec]
    simp only [Outcome.ok_bind, Outcome.pure_eq, bytes, hdr, n, List.append_assoc]
  have hlen : bytes.length = 12 + 32 * n + total (texs.filter Tex.valid) := by
    simp only [bytes, List.length_append, hhdr, hreclen, flatMap_length, n]; omega
  have hmagic : slice bytes 0 4 = [0x57, 0x41, 0x44, 0x32] := by
    simp only [bytes, hdr, List.append_assoc]
    rw [slice_append_left _ _ _ _ (by omega), magic_wad2]; rfl
  have hnum : u32At bytes 4 = n := by
    have := slice_append_right (ascii "WAD2") (int32 n ++ (int32 12 ++ (recs.flatten ++
      (texs.filter Tex.valid).flatMap (·.data)))) 0 4
    rw [ham, Nat.add_zero] at this
    simp only [bytes, hdr, List.append_assoc]
    unfold u32At
    rw [this]
    exact u32At_int32 n (by omega) _
  have hofs : u32At bytes 8 = 12 := by
    have := slice_append_right (ascii "WAD2" ++ int32 n) (int32 12 ++ (recs.flatten ++
      (texs.filter Tex.valid).flatMap (·.data))) 0 4
    simp only [List.length_append, ham, hl4, Nat.add_zero] at this
    simp only [bytes, hdr, List.append_assoc] at this ⊢
    unfold u32At
    rw [this]
    exact u32At_int32 12 (by omega) _
  have hdir := headers_directory hh hdr ((texs.filter Tex.valid).flatMap (·.data))
  rw [hhdr] at hdir
  have hwd : wadDirectory bytes = wanted (texs.filter Tex.valid) (12 + n * 32) := by
    unfold wadDirectory
    rw [hofs, hnum]
    exact hdir.1
  have hsound : WadSound bytes := ⟨by omega, Or.inl hmagic, by rw [hofs, hnum]; exact hdir.2⟩
  have hwithin : ∀ e ∈ wadDirectory bytes, Within bytes e := by
    rw [hwd]
    exact wanted_within _ _ _ (by omega)
  obtain ⟨p, hp, hf⟩ := wad_faithful bytes hsound hwithin
  refine ⟨bytes, p, hexp, hp, ?_⟩
  intro history
  constructor
  · intro l t r hltr hr
    have hf := (hf history (shortName t) (shortName_noNul t)).2.1
    have hlat : Latest (wadDirectory bytes) (shortName t) ⟨shortName t, 12 + n * 32 + total l, t.data.length⟩ := by
      refine ⟨wanted l (12 + n * 32), wanted r (12 + n * 32 + total l + t.data.length), ?_, ?_, ?_⟩
      · rw [hwd, hltr, wanted_append]; rfl
      · rw [Cmdlib.sameText_iff]
      · intro f hfm
        obtain ⟨t', ht', hn⟩ := wanted_mem _ _ f hfm
        rw [hn]
        exact hr t' ht'
    rw [hf _ hlat]
    simp only
    congr 1
    have := data_slice (hdr ++ recs.flatten) l r t
    rw [← hltr] at this
    have hpl : (hdr ++ recs.flatten).length = 12 + n * 32 := by
      rw [List.length_append, hhdr, hreclen]
    rw [hpl] at this
    simpa only [bytes, List.append_assoc] using this
  · intro name hname hno
    apply (hf history name hname).2.2
    rw [hwd]
    intro e he
    obtain ⟨t, ht, hn⟩ := wanted_mem _ _ e he
    rw [hn]
    exact hno t ht

/-- Three textures: one of 16 by 16, one without data of its own, and another one of 16 by 16. -/
def someTextures : List Tex := [⟨str "brick", 16, 16, List.replicate 380 7⟩, ⟨str "sky", 16, 16, List.replicate 40 0⟩,
  ⟨str "*water", 16, 16, List.replicate 380 9⟩]

example : (∀ t ∈ someTextures.filter Tex.valid, QuakeSized t ∧ t.width * t.height < 2 ^ 32) ∧
    12 + 32 * (someTextures.filter Tex.valid).length + total (someTextures.filter Tex.valid) < 2 ^ 31 ∧
    (someTextures.filter Tex.valid).length = 2 := by
  have hf : someTextures.filter Tex.valid =
    [⟨str "brick", 16, 16, List.replicate 380 7⟩, ⟨str "*water", 16, 16, List.replicate 380 9⟩] := by decide +kernel
  rw [hf]
  refine ⟨?_, by decide +kernel, rfl⟩
  intro t ht
  simp only [List.mem_cons, List.not_mem_nil, or_false] at ht
  rcases ht with rfl | rfl <;> unfold QuakeSized <;> decide +kernel

/-- Two textures of 8 by 8 as in a Half-Life BSP file, with 770 bytes for a palette. -/
def paletted : List Tex := [⟨str "a", 8, 8, List.replicate 895 7⟩, ⟨str "b", 8, 8, List.replicate 895 9⟩]

/-- The bytes of a result. -/
def bytesOf : Outcome (List Byte) → List Byte
  | .ok b => b
  | _ => []

/-- C132, negation: textures of Half-Life BSP files carry a palette of 770 more bytes; they are cut off, and the places
of all textures after them are wrong in the wad. -/
theorem palettes_shift_textures : ¬ ∀ texs, ExtractsAll texs := by
  intro h
  obtain ⟨bytes, p, he, ho, hf⟩ := h paletted
  have hb := (hf []).1 [⟨str "a", 8, 8, List.replicate 895 7⟩] ⟨str "b", 8, 8, List.replicate 895 9⟩ []
    (by decide +kernel) (fun t' ht' => absurd ht' (List.not_mem_nil))
  have hs : shortName ⟨str "b", 8, 8, List.replicate 895 9⟩ = str "b" := by decide +kernel
  rw [hs] at hb
  have hl : (p.load (str "b")).1 = some (List.replicate 895 9) := hb
  obtain ⟨off, hfind⟩ := load_size _ _ _ hl
  have hw := ((open_wad_partial bytes).1).mp ⟨p, ho⟩
  obtain ⟨q, hq⟩ := openWad_sound hw
  rw [hq] at ho
  cases ho
  have e2 : find (build [] (wadDirectory bytes)) (str "b") =
    some (off, (List.replicate 895 (9 : Byte)).length) := hfind
  have hbytes : bytes = bytesOf (exportWad paletted) := by rw [he]; rfl
  have e1 : find (build [] (wadDirectory (bytesOf (exportWad paletted)))) (str "b") = some (201, 125) := by
    decide +kernel
  rw [← hbytes] at e1
  rw [e1, List.length_replicate] at e2
  injection e2 with e3
  injection e3 with _ e4
  omega

end Verif.Archive
