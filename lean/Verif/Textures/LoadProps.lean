import Verif.Textures.Lemmas

/-!
C150: the images of textures are what the bytes of their files say, and nothing else is read.
-/

namespace Verif.Textures

open Verif.Stream Spec

/-- **C150**, for textures of Quake and Half-Life: with a whole header, sizes whose product is a 32-bit number and a
palette of 256 colours, the texture has the size in the header, and its pixels are the colours of the bytes where the
header says, if they are within the file; otherwise it has none. The palette is that of the texture (Half-Life), or the
given one. -/
theorem mip_loaded_partial (hl : Bool) (pal : List Rgb) (f : List Byte) (h40 : 40 ≤ f.length) (hpos : 0 < u32At f 16 * u32At f 20)
    (hsum : i32At f 24 + (u32At f 16 * u32At f 20 : Nat) < 2 ^ 32) (hsize : u32At f 16 * u32At f 20 < 2 ^ 32)
    (h3 : u32At f 16 / 8 * (u32At f 20 / 8) < 2 ^ 31)
    (hsum3 : i32At f 36 + (u32At f 16 / 8 * (u32At f 20 / 8) : Nat) < 2 ^ 31) (hp : 256 ≤ (chosen hl pal f).length) :
    ∃ t : Texture, loadMip hl pal f false = .ok (some t) ∧ t.w = u32At f 16 ∧ t.h = u32At f 20 ∧ t.mw = t.w ∧ t.mh = t.h ∧
      t.override = none ∧
      t.pixels = if 0 < i32At f 24 ∧ i32At f 24 + (t.w * t.h : Nat) ≤ f.length
        then (bytes f (i32At f 24).toNat (t.w * t.h)).map (pix (chosen hl pal f)) else [] := by
  obtain ⟨v, hv, e1, e2, e3, e4⟩ := mip_fields f h40
  unfold loadMip
  rw [hv]
  simp only [Outcome.ok_bind, Bool.false_eq_true, if_false, e1, e2, e3, e4, Int.toNat_natCast]
  have em : mul32 (u32At f 16) (u32At f 20) = u32At f 16 * u32At f 20 := Nat.mod_eq_of_lt hsize
  rw [em]
  by_cases h0 : i32At f 24 ≤ 0
  · rw [if_pos h0]
    exact ⟨_, rfl, rfl, rfl, rfl, rfl, rfl, by simp only; rw [if_neg (by omega)]⟩
  · rw [if_neg h0]
    rw [Int.emod_eq_of_lt (by omega) hsum]
    by_cases hb : (f.length : Int) < i32At f 24 + (u32At f 16 * u32At f 20 : Nat)
    · rw [if_pos hb]
      exact ⟨_, rfl, rfl, rfl, rfl, rfl, rfl, by simp only; rw [if_neg (by omega)]⟩
    · rw [if_neg hb]
      obtain ⟨o, ho⟩ : ∃ o : Nat, i32At f 24 = o := ⟨(i32At f 24).toNat, by omega⟩
      have hs : IStream.seek ⟨f, ((40 : Nat) : Int), false⟩ (i32At f 24) = ⟨f, (o : Int), false⟩ := by
        rw [ho]; simp [IStream.seek]
      rw [hs, readInto_some f o _ hpos (by omega)]
      simp only [Outcome.ok_bind]
      have hc : ownPal hl f ⟨f, ((o + u32At f 16 * u32At f 20 : Nat) : Int), false⟩ (u32At f 16) (u32At f 20)
          (i32At f 36) = .ok (if hl then ownPalette f else none) := by
        unfold ownPal
        cases hl with
        | true => simp only [if_true]; exact mipPalette_own f _ h3 hsum3
        | false => simp
      rw [hc]
      simp only [Outcome.ok_bind]
      have hch : (if hl then ownPalette f else none).getD pal = chosen hl pal f := by
        unfold chosen; cases hl <;> simp
      rw [hch, convert_map _ hp]
      simp only [Outcome.ok_bind, Outcome.pure_eq]
      refine ⟨_, rfl, rfl, rfl, rfl, rfl, rfl, ?_⟩
      simp only
      rw [if_pos (by omega), ho]
      rfl

/-- **C150**, for textures of Quake II, whose headers are not checked. -/
theorem wal_loaded_partial (pal : List Rgb) (f : List Byte) (h100 : 100 ≤ f.length) (hpos : 0 < u32At f 32 * u32At f 36)
    (hsize : u32At f 32 * u32At f 36 < 2 ^ 32) (hin : u32At f 40 + u32At f 32 * u32At f 36 ≤ f.length)
    (hname : 0 ∈ bytes f 56 32) (hp : 256 ≤ pal.length) :
    ∃ t : Texture, loadWal pal f false = .ok t ∧ t.w = u32At f 32 ∧ t.h = u32At f 36 ∧ t.mw = t.w ∧ t.mh = t.h ∧
      t.pixels = (bytes f (u32At f 40) (t.w * t.h)).map (pix pal) := by
  obtain ⟨v, hv, e1, e2, e3, e4⟩ := wal_fields f h100
  unfold loadWal
  rw [hv]
  simp only [Outcome.ok_bind, Bool.false_eq_true, if_false, e1, e2, e3, Int.toNat_natCast]
  have em : mul32 (u32At f 32) (u32At f 36) = u32At f 32 * u32At f 36 := Nat.mod_eq_of_lt hsize
  have hs : IStream.seek ⟨f, ((100 : Nat) : Int), false⟩ (u32At f 40 : Int) = ⟨f, (u32At f 40 : Int), false⟩ := by
    simp [IStream.seek]
  rw [em, if_neg (by rw [e4]; simpa using hname), hs, readInto_some f _ _ hpos hin]
  simp only [Outcome.ok_bind]
  rw [convert_map _ hp]
  exact ⟨_, rfl, rfl, rfl, rfl, rfl, rfl⟩

/-- **C150**, for the other formats: the pixels that the library returned. -/
theorem stb_loaded (i : Stb) (hsize : i.w * i.h < 2 ^ 31) (hd : i.data.length = i.w * i.h) :
    ∃ t : Texture, loadStb (some i) false = .ok (some t) ∧ t.w = i.w ∧ t.h = i.h ∧ t.pixels = i.data ∧ Full t := by
  unfold loadStb
  simp only [Bool.false_eq_true, if_false]
  rw [if_neg (by omega), if_neg (by omega)]
  refine ⟨_, rfl, rfl, rfl, ?_, ?_⟩
  · simp only; rw [← hd, List.take_length]
  · unfold Full; simp only [List.length_take]; omega

/-- **C150**, the palette: the last 768 bytes of the file of Quake II, if it has an eight-bit image. -/
theorem pcx_palette_partial (f : List Byte) (h : 768 ≤ f.length) :
    loadPcx f = .ok (if f[0]? = some 10 ∧ f[1]? = some 5 ∧ f[2]? = some 1 ∧ f[3]? = some 8
      then some (palette (bytes f (f.length - 768) 768)) else none) := by
  have hne : f ≠ [] := by intro e; simp [e] at h
  unfold loadPcx
  rw [if_neg hne]
  have h1 := fields_some pcxStart (by simp [pcxStart]) f 0 (by simp [pcxStart, width]; omega)
  have hw : width pcxStart = 16 := by decide
  rw [hw] at h1
  unfold IStream.open
  rw [show (0 : Int) = ((0 : Nat) : Int) from rfl, h1]
  simp only [Outcome.ok_bind]
  have hs : IStream.seek ⟨f, ((0 + 16 : Nat) : Int), false⟩ (((0 + 16 : Nat) : Int) + 49) = ⟨f, ((65 : Nat) : Int), false⟩ := by
    simp [IStream.seek]
  rw [hs]
  have h2 := fields_some [i8, u16, u16] (by simp) f 65 (by simp [width]; omega)
  have hw2 : width [i8, u16, u16] = 5 := by decide
  rw [hw2] at h2
  rw [h2]
  simp only [Outcome.ok_bind]
  match f, h with
  | a :: b :: c :: d :: l, h =>
    simp only [List.drop_zero, pcxStart, decodeFields, List.take_succ_cons, List.take_zero, List.drop_succ_cons,
      List.getElem?_cons_zero, List.getElem?_cons_succ, Option.some.injEq]
    have key : ∀ x : Byte, (i8.decode [x] = 10 ↔ x = 10) ∧ (i8.decode [x] = 5 ↔ x = 5) ∧ (i8.decode [x] = 1 ↔ x = 1) ∧
        (i8.decode [x] = 8 ↔ x = 8) := by decide +kernel
    simp only [ne_eq, (key _).1, (key _).2.1, (key _).2.2.1, (key _).2.2.2]
    by_cases hc : a = 10 ∧ b = 5 ∧ c = 1 ∧ d = 8
    · rw [if_pos hc, if_neg (by tauto)]
      have hs2 : ∀ (m : List Byte) (p q : Int), IStream.seek (IStream.seek ⟨m, p, false⟩ q) ((m.length : Int) - 768) =
          ⟨m, (m.length : Int) - 768, false⟩ := by intro m p q; simp [IStream.seek]
      rw [hs2]
      generalize hf : (a :: b :: c :: d :: l) = f at *
      have : (f.length : Int) - 768 = ((f.length - 768 : Nat) : Int) := by omega
      rw [this, readInto_some f _ 768 (by omega) (by omega)]
      simp only [Outcome.ok_bind, Outcome.pure_eq]
      rw [colours_palette _ (by simp [bytes]; omega)]
    · rw [if_neg hc, if_pos (by tauto)]
  | [], h => simp at h
  | [_], h => simp at h
  | [_, _], h => simp at h
  | [_, _, _], h => simp at h

/-! ### Files that are read beyond their end -/

/-- A header of a texture: sizes, and the places of the first and the fourth image. -/
def exMip (w h o0 o3 : Int) : List Byte :=
  List.replicate 16 65 ++ u32.encode w ++ u32.encode h ++ i32.encode o0 ++ i32.encode 0 ++ i32.encode 0 ++ i32.encode o3

/-- A header of a texture of Quake II: sizes, and the place of the image. -/
def exWal (w h o0 : Int) (anim : Byte) : List Byte :=
  List.replicate 32 65 ++ u32.encode w ++ u32.encode h ++ u32.encode o0 ++ List.replicate 12 0 ++ List.replicate 32 anim ++
    List.replicate 12 0

/-- A grey palette. -/
def exPal : List Rgb := (List.range 256).map fun i => ⟨BitVec.ofNat 8 i, BitVec.ofNat 8 i, BitVec.ofNat 8 i⟩

/-- C150, partial in the same way: the palette of the game. Quake II takes the one of its colormap if that can be read and
the default one otherwise; the other games always take the default one. -/
theorem game_palette_partial (q2 : Bool) (dflt : List Rgb) (cm : Option (List Byte)) (h : ∀ f, cm = some f → 768 ≤ f.length) :
    (q2 = false → initPalette q2 dflt cm = .ok dflt) ∧
    (cm = none → initPalette q2 dflt cm = .ok dflt) ∧
    ∀ f, q2 = true → cm = some f →
      (f.take 1 = [10] ∧ f[1]? = some 5 ∧ f[2]? = some 1 ∧ f[3]? = some 8 →
        initPalette q2 dflt cm = .ok (palette (bytes f (f.length - 768) 768))) ∧
      (¬ (f.take 1 = [10] ∧ f[1]? = some 5 ∧ f[2]? = some 1 ∧ f[3]? = some 8) → initPalette q2 dflt cm = .ok dflt) := by
  refine ⟨?_, ?_, ?_⟩
  · rintro rfl
    cases cm <;> rfl
  · rintro rfl
    cases q2 <;> rfl
  · rintro f rfl rfl
    have e : f.take 1 = [10] ↔ f[0]? = some 10 := by
      cases f with
      | nil => simp
      | cons a l => simp
    rw [e]
    unfold initPalette
    simp only
    rw [pcx_palette_partial f (h f rfl)]
    refine ⟨fun hc => ?_, fun hc => ?_⟩
    · rw [if_pos hc]; rfl
    · rw [if_neg hc]; rfl

/-- A truncated header of a texture is read beyond the end of the file, before the check. -/
theorem short_mip_ub : loadMip false exPal ((exMip 2 2 40 0).take 39) false = .ub := by decide +kernel

/-- The sum of offset and size may wrap around: 4294967295 bytes are read. -/
theorem mip_wraps_ub : loadMip false exPal (exMip 65535 65537 39 0) false = .ub := by
  obtain ⟨v, hv, e1, e2, e3, e4⟩ := mip_fields (exMip 65535 65537 39 0) (by decide)
  have h1 : u32At (exMip 65535 65537 39 0) 16 = 65535 := by decide +kernel
  have h2 : u32At (exMip 65535 65537 39 0) 20 = 65537 := by decide +kernel
  have h3 : i32At (exMip 65535 65537 39 0) 24 = 39 := by decide +kernel
  have h4 : (exMip 65535 65537 39 0).length = 40 := by decide
  have hr : ∀ (m : List Byte) (p n : Nat), p < m.length → m.length < p + n →
      readInto (IStream.seek ⟨m, ((40 : Nat) : Int), false⟩ (p : Int)) n = .ub := by
    intro m p n h h'
    unfold readInto IStream.seek IStream.read
    simp only [Bool.false_eq_true, if_false]
    rw [if_neg (by omega), if_neg (by omega)]
    rfl
  unfold loadMip
  rw [hv]
  simp only [Outcome.ok_bind, Bool.false_eq_true, if_false, e1, e2, e3, h1, h2, h3, h4, Int.toNat_natCast]
  rw [if_neg (by omega), if_neg (by unfold mul32; omega)]
  have hx : readInto (IStream.seek ⟨exMip 65535 65537 39 0, ((40 : Nat) : Int), false⟩ 39) (mul32 65535 65537) = .ub :=
    hr (exMip 65535 65537 39 0) 39 _ (by rw [h4]; omega) (by rw [h4]; unfold mul32; omega)
  rw [hx]
  rfl

/-- Half-Life has no palette of its own, so that a texture without one is read beyond the end of an empty vector. -/
theorem no_palette_ub : loadMip true [] (exMip 2 2 40 0 ++ [1, 2, 3, 4]) false = .ub := by decide +kernel

/-- The size of the fourth image may be negative, so that the palette is read from before the start of the file. -/
theorem palette_before_ub : loadMip true exPal (exMip 504 536870912 40 67108102 ++ List.replicate 20 0) false = .ub := by
  decide +kernel

/-- An image that is not within the file is read nevertheless (Quake II). -/
theorem wal_beyond_ub : loadWal exPal (exWal 2 2 97 0) false = .ub := by decide +kernel

/-- A truncated header is read beyond the end of the file (Quake II). -/
theorem short_wal_ub : loadWal exPal ((exWal 2 2 0 0).take 99) true = .ub := by decide +kernel

/-- The name of the next frame need not end (Quake II). -/
theorem wal_name_ub : loadWal exPal (exWal 2 2 0 65) true = .ub := by decide +kernel

/-- A palette file with fewer than 768 bytes is read from before its start. -/
theorem short_pcx_ub : loadPcx ([10, 5, 1, 8] ++ List.replicate 163 0) = .ub := by decide +kernel

/-! ### The hypotheses are met -/

example : ∃ t : Texture, loadMip false exPal (exMip 2 2 40 0 ++ [1, 2, 3, 255]) false = .ok (some t) ∧ t.w = 2 ∧
    t.pixels = [⟨⟨1, 1, 1⟩, 255⟩, ⟨⟨2, 2, 2⟩, 255⟩, ⟨⟨3, 3, 3⟩, 255⟩, ⟨⟨255, 255, 255⟩, 0⟩] := by
  obtain ⟨t, h, h1, h2, _, _, _, h6⟩ := mip_loaded_partial false exPal (exMip 2 2 40 0 ++ [1, 2, 3, 255]) (by decide +kernel) (by decide +kernel)
    (by decide +kernel) (by decide +kernel) (by decide +kernel) (by decide +kernel) (by decide +kernel)
  refine ⟨t, h, by rw [h1]; decide +kernel, ?_⟩
  rw [h6, h1, h2]
  decide +kernel

example : loadMip true [] (exMip 2 1 40 42 ++ [7, 255] ++ [0, 1] ++ List.replicate 768 9) false =
    .ok (some ⟨2, 1, none, 2, 1, [⟨⟨9, 9, 9⟩, 255⟩, ⟨⟨9, 9, 9⟩, 0⟩], ⟨0, 0, 0⟩⟩) := by
  decide +kernel

example : ∃ t : Texture, loadWal exPal (exWal 2 2 0 0) false = .ok t ∧ t.pixels.length = 4 := by
  obtain ⟨t, h, h1, h2, _, _, h6⟩ := wal_loaded_partial exPal (exWal 2 2 0 0) (by decide +kernel) (by decide +kernel)
    (by decide +kernel) (by decide +kernel) (by decide +kernel) (by decide +kernel)
  refine ⟨t, h, ?_⟩
  rw [h6, h1, h2]
  decide +kernel

example : ∃ p, loadPcx ([10, 5, 1, 8] ++ List.replicate 764 7) = .ok (some p) :=
  ⟨_, by rw [pcx_palette_partial _ (by rw [List.length_append, List.length_replicate]; decide), if_pos ⟨rfl, rfl, rfl, rfl⟩]⟩

end Verif.Textures
