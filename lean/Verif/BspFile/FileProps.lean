import Verif.BspFile.DetectLemmas

/-!
Properties of BSP files: C22 (layout), C23 (round trip), C24 (BSPX bounds), C29 (visibility lump), C30 (textures).
-/

namespace Verif.BspFile

open Verif Verif.Stream

/-! ### An example -/

/-- A small file: a string of entities, bytes, a visibility lump for Quake II, textures, and two BSPX lumps. -/
def exampleLump : LumpKind → LumpData
  | .text => .text [0x7b, 0x7d]
  | .raw => .raw [1, 2, 3, 4, 5]
  | .recs _ _ => .recs []
  | .vis => .vis [[12, 13]] [7, 8]
  | .tex => .tex [none, some (List.replicate 41 0), some []]
  | .unused => .unused

/-- See `exampleLump`; the lump `i` holds one record of zeros. -/
def exampleFile (v : Ver) (i : Nat) : FileBsp :=
  ⟨(v.lumps.zipIdx).map fun e => match e.1 with
    | .recs types _ => if e.2 = i then .recs [types.map fun _ => 0] else .recs []
    | k => exampleLump k, [([0x41], [1, 2, 3, 4, 5]), ([0x42, 0x43], [])]⟩

theorem fileTyped_of_zip {v : Ver} {d : FileBsp} (h1 : d.lumps.length = v.lumps.length)
    (h2 : ∀ e ∈ v.lumps.zip d.lumps, Spec.Typed e.1 e.2) : Spec.FileTyped v d := by
  refine ⟨h1, ?_⟩
  intro i k x hk hx
  exact h2 (k, x) (List.mem_of_getElem? (List.getElem?_zip_eq_some.mpr ⟨hk, hx⟩))

theorem example_typed : Spec.FileTyped .q1 (exampleFile .q1 14) ∧ Spec.FileTyped .q2 (exampleFile .q2 13) ∧
    Spec.FileTyped .h2 (exampleFile .h2 14) := by
  refine ⟨fileTyped_of_zip rfl ?_, fileTyped_of_zip rfl ?_, fileTyped_of_zip rfl ?_⟩ <;>
    simp [exampleFile, exampleLump, Ver.lumps, Ver.game, Ver.arr, Ver.family, Ver.hexen2, fileTypes, Spec.Typed,
      Spec.TexOk, FieldsHold, List.zipIdx] <;> decide

theorem example_size : Spec.fileSize .q1 (exampleFile .q1 14) < 2147483648 ∧
    Spec.fileSize .q2 (exampleFile .q2 13) < 2147483648 ∧ Spec.fileSize .h2 (exampleFile .h2 14) < 2147483648 := by
  decide +kernel

/-! ### C22 -/

/-- **C22**: writing a BSP whose file is smaller than 2 GiB gives a file in which everything is aligned, in bounds and
disjoint. -/
theorem write_layout (v : Ver) (d : FileBsp) (ht : Spec.FileTyped v d) (hs : Spec.fileSize v d < 2147483648) :
    ∃ file dir base ext, writeBsp v d = .ok file ∧ file.length = Spec.fileSize v d ∧ Spec.Layout v d file dir base ext := by
  obtain ⟨out, dir, w, inv, hhdr, hlen, _⟩ := writeBsp_here v d ht hs
  refine ⟨_, _, _, _, w, ?_, layout_here v d inv hhdr⟩
  rw [List.length_append, hlen, ← bspxSize_eq]
  rfl

example : Spec.FileTyped .q2 (exampleFile .q2 13) ∧ Spec.fileSize .q2 (exampleFile .q2 13) < 2147483648 :=
  ⟨example_typed.2.1, example_size.2.1⟩

/-! ### C23 -/

/-- **C23**, partial: a written file is loaded as the same version with the same data (textures: see `tex_loaded`), if
the game can be recognised. Missing: Quake and Hexen II files that are confused; see `quake_loaded_as_hexen2`. -/
theorem write_load_partial (v : Ver) (d : FileBsp) (ht : Spec.FileTyped v d) (hs : Spec.fileSize v d < 2147483648)
    (hn : Spec.NamesOk d.bspx) (hr : Spec.Recognisable v d) :
    ∃ file, writeBsp v d = .ok file ∧ loadBsp file = .ok (v, ⟨d.lumps.map Spec.loaded, d.bspx⟩) := by
  obtain ⟨out, dir, w, inv, hhdr, hlen, hhold⟩ := writeBsp_here v d ht hs
  have hl : (out ++ bspxPart out.length d.bspx).length < 2147483648 := by
    rw [List.length_append, hlen, ← bspxSize_eq]
    exact hs
  refine ⟨_, w, loadBsp_here v d ht hn inv hhdr hhold hl ?_⟩
  intro hg
  refine detect_here v d ht inv ?_ hr hg _
  rw [List.length_append] at hl
  omega

/-- The file that is written for an empty Quake BSP with an entity string and no models. -/
def emptyQuake : FileBsp :=
  ⟨Ver.q1.lumps.map exampleLump, []⟩

/-- A Quake file without models is loaded as a Hexen II file. -/
theorem quake_loaded_as_hexen2 : Spec.FileTyped .q1 emptyQuake ∧
    ∃ file, writeBsp .q1 emptyQuake = .ok file ∧ loadBsp file = .ok (.h2, ⟨emptyQuake.lumps.map Spec.loaded, []⟩) := by
  refine ⟨fileTyped_of_zip rfl ?_, (match writeBsp .q1 emptyQuake with | .ok f => f | _ => []), ?_, ?_⟩
  · simp [emptyQuake, exampleLump, Ver.lumps, Ver.game, Ver.arr, Ver.family, Ver.hexen2, fileTypes, Spec.Typed,
      Spec.TexOk]
  · decide +kernel
  · decide +kernel

example : Spec.NamesOk (exampleFile .q1 14).bspx ∧ Spec.Recognisable .q1 (exampleFile .q1 14) ∧
    Spec.Recognisable .q2 (exampleFile .q2 13) ∧ Spec.Recognisable .h2 (exampleFile .h2 14) := by
  refine ⟨?_, Or.inl ?_, trivial, Or.inl ?_⟩
  · constructor
    · decide
    · decide
  · decide +kernel
  · decide +kernel

/-! ### C24 -/

/-- The loaded BSPX lumps are parts of the file. -/
theorem readBspxLumps_inside (file : List Byte) : ∀ (n : Nat) (s : IStream) (m r : Bspx), readBspxLumps file s n m = .ok r →
    (∀ e ∈ m, ∃ ofs, Spec.At file ofs e.2) → ∀ e ∈ r, ∃ ofs, Spec.At file ofs e.2 := by
  intro n
  induction n with
  | zero =>
    intro s m r h hm
    simp only [readBspxLumps, Outcome.ok.injEq] at h
    rwa [← h]
  | succ n ih =>
    intro s m r h hm
    rw [readBspxLumps, Outcome.bind_eq_ok] at h
    obtain ⟨name, _, h⟩ := h
    rw [Outcome.bind_eq_ok] at h
    obtain ⟨nums, hnums, h⟩ := h
    split at h
    · rename_i nm ofs len _ hx
      have hpos := fields_two hnums hx
      split at h
      · simp only [Outcome.pure_eq, Outcome.ok.injEq] at h
        rwa [← h]
      · split at h
        · rw [Outcome.bind_eq_ok] at h
          obtain ⟨nm', _, h⟩ := h
          refine ih _ _ _ h ?_
          have hnew : ∃ o, Spec.At file o ((file.drop ofs.toNat).take len.toNat) := by
            refine ⟨ofs.toNat, ?_, ?_⟩
            · rw [List.length_take, List.length_drop]; omega
            · rw [List.length_take, List.length_drop, Nat.min_eq_left (by omega)]
          intro e he
          unfold assign at he
          split at he
          · rw [List.mem_map] at he
            obtain ⟨e', he', rfl⟩ := he
            split
            · exact hnew
            · exact hm e' he'
          · rw [List.mem_append, List.mem_singleton] at he
            rcases he with he | rfl
            · exact hm e he
            · exact hnew
        · exact absurd h (by simp)
    · simp only [Outcome.pure_eq, Outcome.ok.injEq] at h
      rwa [← h]

/-- **C24**, partial: every BSPX lump that is loaded is a part of the file. Missing: some files make the loader read
outside; see `bspx_wraps` and `bspx_before_file`. -/
theorem bspx_inside_partial (file : List Byte) (v : Ver) (d : FileBsp) (h : loadBsp file = .ok (v, d)) :
    ∀ e ∈ d.bspx, ∃ ofs, Spec.At file ofs e.2 := by
  unfold loadBsp at h
  rw [Outcome.bind_eq_ok] at h
  obtain ⟨hd, _, h⟩ := h
  rw [Outcome.bind_eq_ok] at h
  obtain ⟨r, _, h⟩ := h
  rw [Outcome.bind_eq_ok] at h
  obtain ⟨x, hx, h⟩ := h
  simp only [Outcome.pure_eq, Outcome.ok.injEq, Prod.mk.injEq] at h
  obtain ⟨-, rfl⟩ := h
  simp only
  unfold readBspx at hx
  rw [Outcome.bind_eq_ok] at hx
  obtain ⟨e, _, hx⟩ := hx
  simp only at hx
  split at hx
  · rw [Outcome.bind_eq_ok] at hx
    obtain ⟨id, _, hx⟩ := hx
    rw [Outcome.bind_eq_ok] at hx
    obtain ⟨num, _, hx⟩ := hx
    split at hx
    · split at hx
      · exact readBspxLumps_inside file _ _ [] _ hx (by simp)
      · simp only [Outcome.pure_eq, Outcome.ok.injEq] at hx
        rw [← hx]; simp
    · simp only [Outcome.pure_eq, Outcome.ok.injEq] at hx
      rw [← hx]; simp
  · simp only [Outcome.pure_eq, Outcome.ok.injEq] at hx
    rw [← hx]; simp

/-- **C24**, partial: a directory entry whose offset and length do not overflow together is taken exactly when its data
lies inside the file; otherwise it and the following entries are ignored. Nothing is read outside the file. -/
theorem bspx_entry_partial (file : List Byte) (s : IStream) (n : Nat) (m : Bspx) (name : List Byte) (ofs len : Nat)
    (s1 s2 : IStream) (h1 : readChars s 24 = .ok (some name, s1)) (h2 : s1.fields [u32, u32] = .ok (some [(ofs : Int), (len : Int)], s2))
    (hn : 0 ∈ name) (hw : ofs + len < 4294967296) :
    readBspxLumps file s (n + 1) m =
      if ofs + len ≤ file.length then
        readBspxLumps file s2 n (assign m (name.takeWhile (· ≠ 0)) ((file.drop ofs).take len))
      else .ok m := by
  rw [readBspxLumps, h1]
  simp only [Outcome.ok_bind, h2]
  rw [u32_wrap (by omega) (by omega)]
  by_cases hl : ofs + len ≤ file.length
  · rw [if_neg (by omega), if_pos (by omega), if_pos hl]
    unfold cstr
    rw [if_pos hn]
    simp
  · rw [if_pos (by omega), if_neg hl]
    rfl

/-- A Half-Life file with empty lumps and one BSPX directory entry. -/
def bspxFile (entity : Int × Int) (ofs len : Int) : List Byte :=
  headerBytes .hl (entity :: List.replicate 14 (0, 0)) ++ bspxId ++ u32.encode 1 ++ lumpName [0x41] ++ u32.encode ofs ++
    u32.encode len

/-- An entry for which the sum of offset and length overflows is read outside the file. -/
theorem bspx_wraps : loadBsp (bspxFile (124, 0) 100 4294967246) = .ub := by decide +kernel

/-- When the end of the last lump is -4, the BSPX header is read before the file. -/
theorem bspx_before_file : loadBsp (headerBytes .hl (List.replicate 14 (0, 0) ++ [(-4, 0)])) = .ub := by decide +kernel

/-- The same file with a correct entry. -/
example : loadBsp (bspxFile (124, 0) 100 4) = .ok (.hl, ⟨(Ver.hl.lumps.map fun k => match k with
    | .text => .text [] | .raw => .raw [] | .recs _ _ => .recs [] | .vis => .vis [] [] | .tex => .tex []
    | .unused => .unused), [([0x41], ((bspxFile (124, 0) 100 4).drop 100).take 4)]⟩) := by decide +kernel

/-- The file with an entry beyond its end. -/
example : loadBsp (bspxFile (124, 0) 100 400) = .ok (.hl, ⟨(Ver.hl.lumps.map fun k => match k with
    | .text => .text [] | .raw => .raw [] | .recs _ _ => .recs [] | .vis => .vis [] [] | .tex => .tex []
    | .unused => .unused), []⟩) := by decide +kernel

/-! ### C29 -/

/-- **C29**: a visibility lump is read back as it was written. -/
theorem vis_roundtrip (offsets : List (List Int)) (bits : List Byte) (p : Nat) (pre rest : List Byte) (q : Int)
    (ho : ∀ r ∈ offsets, ∃ pvs phs, r = [pvs, phs] ∧ i32.Holds pvs ∧ i32.Holds phs) (hb : offsets = [] ↔ bits = [])
    (hp : pre.length = p) (h4 : p % 4 = 0) (hm : (pre ++ visBytes offsets bits ++ rest).length < 2147483648) :
    ∃ q', readLump ⟨pre ++ visBytes offsets bits ++ rest, q, false⟩ .vis p (visBytes offsets bits).length =
      .ok (.vis offsets bits, ⟨pre ++ visBytes offsets bits ++ rest, q', false⟩) := by
  have := readLump_here (mem := pre ++ visBytes offsets bits ++ rest) (rest := rest) (p := p) (k := .vis)
    (d := .vis offsets bits) trivial ⟨by
      intro r hr
      obtain ⟨a, b, rfl, h1, h2⟩ := ho r hr
      exact ⟨h1, h2, trivial⟩, hb⟩ h4 hm (by
      rw [List.append_assoc, ← hp, List.drop_left]
      rfl) q
  exact this

/-- **C29**: an offset that was set is found again, other offsets are unchanged, and in the lump the row lies at the
offset that is stored. -/
theorem vis_offsets (offsets : List (List Int)) (bits : List Byte) (type cluster offset : Nat)
    (ho : ∀ r ∈ offsets, r.length = 2) (hr : ∀ r ∈ offsets, FieldsHold [i32, i32] r) (ht : type < 2)
    (hc : cluster < offsets.length) (hs : offset + 4 + 8 * offsets.length < 2147483648) :
    ∃ offsets', setBitOffset offsets type cluster offset = .ok offsets' ∧ offsets'.length = offsets.length ∧
      (∀ r ∈ offsets', FieldsHold [i32, i32] r) ∧ getBitOffset offsets' type cluster = .ok offset ∧
      (∀ t c, (t, c) ≠ (type, cluster) → getBitOffset offsets' t c = getBitOffset offsets t c) ∧
      ∃ r stored, offsets'[cluster]? = some r ∧ r[type]? = some ((stored : Nat) : Int) ∧
        (visBytes offsets' bits).drop stored = bits.drop offset := by
  have hrl : offsets[cluster].length = 2 := ho _ (List.getElem_mem hc)
  have hval : i32.wrap (u64.wrap ((offset + visHeader offsets : Nat) : Int)) = ((offset + visHeader offsets : Nat) : Int) := by
    rw [u64_wrap (by omega) (by unfold visHeader; omega), i32_wrap (by omega) (by unfold visHeader; omega)]
  have hset : setBitOffset offsets type cluster offset =
      .ok (offsets.set cluster (offsets[cluster].set type ((offset + visHeader offsets : Nat) : Int))) := by
    unfold setBitOffset
    simp only [Outcome.readAt, List.getElem?_eq_getElem hc, Outcome.ok_bind, Outcome.writeAt, hrl, ht, if_true, hval, hc]
  have hhold : i32.Holds ((offset + visHeader offsets : Nat) : Int) := i32_holds (by omega) (by unfold visHeader; omega)
  have hnew : FieldsHold [i32, i32] (offsets[cluster].set type ((offset + visHeader offsets : Nat) : Int)) := by
    have := hr _ (List.getElem_mem hc)
    generalize offsets[cluster] = r at this hrl
    match r, hrl, this with
    | [a, b], _, ⟨h1, h2, _⟩ =>
      rcases Nat.lt_or_ge type 1 with h | h
      · have : type = 0 := by omega
        subst this
        exact ⟨hhold, h2, trivial⟩
      · have : type = 1 := by omega
        subst this
        exact ⟨h1, hhold, trivial⟩
  have hall : ∀ r ∈ offsets.set cluster (offsets[cluster].set type ((offset + visHeader offsets : Nat) : Int)),
      FieldsHold [i32, i32] r := by
    intro r hr'
    rcases List.mem_or_eq_of_mem_set hr' with h | rfl
    · exact hr r h
    · exact hnew
  refine ⟨_, hset, by simp, hall, ?_, ?_, ?_⟩
  · unfold getBitOffset
    simp only [Outcome.readAt, List.getElem?_set_self hc, Outcome.ok_bind]
    rw [List.getElem?_set_self (by omega)]
    simp only [Outcome.ok_bind, Outcome.pure_eq]
    have : visHeader (offsets.set cluster (offsets[cluster].set type ((offset + visHeader offsets : Nat) : Int))) =
        visHeader offsets := by simp [visHeader]
    rw [this]
    refine congrArg Outcome.ok ?_
    have hv : visHeader offsets = 4 + 4 * offsets.length * 2 := rfl
    have hu : u64.wrap ((offset + visHeader offsets : Nat) : Int) = ((offset + visHeader offsets : Nat) : Int) :=
      u64_wrap (by omega) (by omega)
    rw [hu, u64_wrap (by omega) (by omega),
      i32_wrap (by omega) (by omega)]
    omega
  · intro t c htc
    unfold getBitOffset
    have hv : visHeader (offsets.set cluster (offsets[cluster].set type ((offset + visHeader offsets : Nat) : Int))) =
        visHeader offsets := by simp [visHeader]
    rw [hv]
    by_cases hcc : c = cluster
    · subst hcc
      have htt : type ≠ t := by rintro rfl; exact htc rfl
      simp only [Outcome.readAt, List.getElem?_set_self hc, List.getElem?_eq_getElem hc, Outcome.ok_bind,
        List.getElem?_set_ne htt]
    · simp only [Outcome.readAt, List.getElem?_set_ne (Ne.symm hcc)]
  · refine ⟨_, offset + visHeader offsets, List.getElem?_set_self hc, List.getElem?_set_self (by omega), ?_⟩
    have hlen : (offsets.set cluster (offsets[cluster].set type ((offset + visHeader offsets : Nat) : Int))).length =
        offsets.length := by simp
    generalize offsets.set cluster (offsets[cluster].set type ((offset + visHeader offsets : Nat) : Int)) = os at hall hlen
    unfold visBytes
    rw [if_neg (by omega)]
    have hl : (i32.encode os.length ++ os.flatMap (encodeFields [i32, i32])).length = visHeader offsets := by
      rw [List.length_append, encode_length, flatMap_length _ _ hall]
      have : width [i32, i32] = 8 := by decide
      have h4 : i32.bytes = 4 := rfl
      rw [this, h4, hlen]
      unfold visHeader
      omega
    rw [show offset + visHeader offsets = visHeader offsets + offset by omega, ← List.drop_drop, ← hl, List.drop_left]

example : (∀ r ∈ [[(0 : Int), 0], [5, 6]], r.length = 2) ∧ (∀ r ∈ [[(0 : Int), 0], [5, 6]], FieldsHold [i32, i32] r) := by
  constructor
  · decide
  · intro r hr
    simp only [List.mem_cons, List.not_mem_nil, or_false] at hr
    rcases hr with rfl | rfl <;> simp [FieldsHold] <;> decide

/-! ### C30 -/

/-- **C30**: a texture lump is read back; see `tex_loaded` for `Spec.texLoaded`. -/
theorem tex_roundtrip (ts : List Tex) (p : Nat) (pre rest : List Byte) (q : Int) (ht : ∀ t ∈ ts, Spec.TexOk t)
    (hp : pre.length = p) (h4 : p % 4 = 0) (hm : (pre ++ texBytes p ts ++ rest).length < 2147483648) :
    ∃ q', readLump ⟨pre ++ texBytes p ts ++ rest, q, false⟩ .tex p (texBytes p ts).length =
      .ok (.tex (Spec.texLoaded ts), ⟨pre ++ texBytes p ts ++ rest, q', false⟩) :=
  readLump_here (mem := pre ++ texBytes p ts ++ rest) (rest := rest) (p := p) (k := .tex) (d := .tex ts) trivial ht h4 hm
    (by rw [List.append_assoc, ← hp, List.drop_left]; rfl) q

/-- **C30**: loaded textures: their number is the same, missing textures stay missing, the data of the others is a copy
with at most 3 zeros after it, up to a multiple of 4 unless it is the last texture with data. -/
theorem tex_loaded (ts : List Tex) : (Spec.texLoaded ts).length = ts.length ∧ ∀ (i : Nat) (t : Tex), ts[i]? = some t →
    match t with
    | none => (Spec.texLoaded ts)[i]? = some none
    | some d => ∃ n ≤ 3, (Spec.texLoaded ts)[i]? = some (some (d ++ List.replicate n 0)) ∧
        ((∃ (j : Nat) (d' : List Byte), i < j ∧ ts[j]? = some (some d')) → (d.length + n) % 4 = 0) := by
  induction ts with
  | nil => exact ⟨rfl, by intro i t h; simp at h⟩
  | cons t ts ih =>
    obtain ⟨ih1, ih2⟩ := ih
    have hc : ∃ t', Spec.texLoaded (t :: ts) = t' :: Spec.texLoaded ts ∧ (match t with
        | none => t' = none
        | some d => t' = some (d ++ List.replicate (if ts.any Option.isSome then padTo4 d.length else 0) 0)) := by
      cases t with
      | none => exact ⟨_, rfl, rfl⟩
      | some d => exact ⟨_, rfl, rfl⟩
    obtain ⟨t', e, ht'⟩ := hc
    rw [e]
    refine ⟨by simp [ih1], ?_⟩
    intro i u hi
    cases i with
    | zero =>
      simp only [List.getElem?_cons_zero, Option.some.injEq] at hi
      subst hi
      cases t with
      | none => simp only at ht'; subst ht'; rfl
      | some d =>
        simp only at ht' ⊢
        subst ht'
        have h1 := padTo4_lt d.length
        have h2 := padTo4_dvd d.length
        refine ⟨_, ?_, rfl, ?_⟩
        · split <;> omega
        · rintro ⟨j, d', hj, hj'⟩
          obtain ⟨j, rfl⟩ := Nat.exists_eq_succ_of_ne_zero (by omega : j ≠ 0)
          have : ts.any Option.isSome = true := by
            rw [List.any_eq_true]
            exact ⟨some d', List.mem_of_getElem? (by simpa using hj'), rfl⟩
          rw [if_pos this]
          exact h2
    | succ i =>
      have := ih2 i u (by simpa using hi)
      cases u with
      | none => simpa using this
      | some d =>
        obtain ⟨n, h1, h2, h3⟩ := this
        refine ⟨n, h1, by simpa using h2, ?_⟩
        rintro ⟨j, d', hj, hj'⟩
        obtain ⟨j, rfl⟩ := Nat.exists_eq_succ_of_ne_zero (by omega : j ≠ 0)
        exact h3 ⟨j, d', by omega, by simpa using hj'⟩

/-- `stream_size` is the number of bytes that are written at any aligned position. -/
theorem tex_size (ts : List Tex) (p : Nat) (h4 : p % 4 = 0) : texSize ts = (texBytes p ts).length := by
  have := lumpBytes_length (k := .tex) (d := .tex ts) (p := p) h4
  simp only [lumpBytes] at this
  rw [this]
  simp [texSize, SizeStream.write]

/-- A texture with data that is shorter than a miptex header cannot be loaded: its fields are read beyond the data. -/
theorem tex_short_ub : readLump ⟨texBytes 0 [some [1, 2, 3]], 0, false⟩ .tex 0 (texBytes 0 [some [1, 2, 3]]).length = .ub := by
  decide +kernel

/-- A texture with a name of 16 characters is loaded by reading beyond its name. -/
theorem tex_name_ub : readLump ⟨texBytes 0 [some (List.replicate 40 1)], 0, false⟩ .tex 0
    (texBytes 0 [some (List.replicate 40 1)]).length = .ub := by
  decide +kernel

example : ∀ t ∈ [none, some (List.replicate 41 (0 : Byte)), some []], Spec.TexOk t := by
  intro t ht
  simp only [List.mem_cons, List.not_mem_nil, or_false] at ht
  rcases ht with rfl | rfl | rfl
  · trivial
  · right; decide
  · left; rfl

end Verif.BspFile
