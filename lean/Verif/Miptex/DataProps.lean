import Verif.Miptex.DataLemmas
import Verif.BspFile.LumpSpec

/-!
C236: the textures in the BSP files of qbsp.
-/

namespace Verif.Miptex

open Verif.Stream Verif.BspFile Spec
open Verif.Textures.Spec (u32At i32At bytes)
open Verif.Textures (loadMip embedded Texture)

/-- **C236**: a texture whose file may be copied is in the BSP file byte for byte. -/
theorem copied (o : DataOptions) (hl : Bool) {find : List Byte → Option Hit} {name f : List Byte}
    (h : Source find name false f) (ho : o.notex = false) : textureData o hl find name = .ok (some f) := by
  simp [textureData, h.1, loadHeader_some h.2, ho]

/-- **C236**: with `-notex`, or when the archive is one that is not to be copied, only the header is stored, with the name
that is listed and the size in the file. -/
theorem not_copied (o : DataOptions) (hl : Bool) {find : List Byte → Option Hit} {name f : List Byte} {external : Bool}
    (hn : 0 ∉ name) (h : Source find name external f) (ho : o.notex = true ∨ external = true) :
    ∃ t, textureData o hl find name = .ok t ∧ HeaderOnly o name (u32At f 16) (u32At f 20) t := by
  refine ⟨_, ?_, withoutImages_spec o hn _ _ (u32At_lt f 16) (u32At_lt f 20)⟩
  simp only [textureData, h.1, loadHeader_some h.2, Outcome.ok_bind]
  rw [if_neg]
  rcases ho with ho | ho <;> simp [ho]

/-- **C236**: of a texture that is not found, there is nothing in the BSP file, or a header with the name and the size 0 if
that is wanted. -/
theorem not_found (o : DataOptions) (hl : Bool) {find : List Byte → Option Hit} {name : List Byte} (hn : 0 ∉ name)
    (h : Missing find name) : ∃ t, textureData o hl find name = .ok t ∧ HeaderOnly o name 0 0 t := by
  refine ⟨_, ?_, withoutImages_spec o hn 0 0 (by norm_num) (by norm_num)⟩
  simp [textureData, loadHeader_none h]

/-- **C236**: there is one entry for every listed texture, in the order of the list, so the numbers in faces stay right. -/
theorem one_each (o : DataOptions) (hl : Bool) (find : List Byte → Option Hit) : ∀ (names : List (List Byte)) {ts : List Tex},
    loadTextureData o hl find names = .ok ts →
    ts.length = names.length ∧ ∀ (i : Nat) (name : List Byte), names[i]? = some name → ∃ t, ts[i]? = some t ∧ textureData o hl find name = .ok t := by
  intro names
  induction names with
  | nil => intro ts h; simp only [loadTextureData, Outcome.ok.injEq] at h; subst h; simp
  | cons n ns ih =>
    intro ts h
    simp only [loadTextureData, Outcome.bind_eq_ok] at h
    obtain ⟨t, h1, us, h2, h3⟩ := h
    simp only [Outcome.ok.injEq] at h3
    subst h3
    obtain ⟨hl', hi⟩ := ih h2
    refine ⟨by simp [hl'], fun i name hname => ?_⟩
    cases i with
    | zero => simp only [List.getElem?_cons_zero, Option.some.injEq] at hname; subst hname; exact ⟨t, rfl, h1⟩
    | succ i => simpa using hi i name (by simpa using hname)

/-- **C236**: if no file is shorter than a header, all textures are stored. -/
theorem all_stored (o : DataOptions) (hl : Bool) {find : List Byte → Option Hit} : ∀ {names : List (List Byte)},
    (∀ n ∈ names, 0 ∉ n ∧ ∀ ext f, find n = some ⟨ext, some f⟩ → 40 ≤ f.length) →
    ∃ ts, loadTextureData o hl find names = .ok ts := by
  intro names
  induction names with
  | nil => intro _; exact ⟨[], rfl⟩
  | cons n ns ih =>
    intro h
    obtain ⟨ts, hts⟩ := ih fun m hm => h m (by simp [hm])
    obtain ⟨hn, hf⟩ := h n (by simp)
    have : ∃ t, textureData o hl find n = .ok t := by
      by_cases hm : Missing find n
      · obtain ⟨t, ht, -⟩ := not_found o hl hn hm
        exact ⟨t, ht⟩
      · simp only [Missing, not_forall, not_not] at hm
        obtain ⟨ext, f, e⟩ := hm
        by_cases hc : o.notex = true ∨ ext = true
        · obtain ⟨t, ht, -⟩ := not_copied o hl hn ⟨e, hf ext f e⟩ hc
          exact ⟨t, ht⟩
        · simp only [not_or, Bool.not_eq_true] at hc
          rw [hc.2] at e
          exact ⟨_, copied o hl ⟨e, hf _ f e⟩ hc.1⟩
    obtain ⟨t, ht⟩ := this
    exact ⟨t :: ts, by simp [loadTextureData, ht, hts]⟩

/-- **C236**: light takes the size from a header without images, and has no images then. -/
theorem size_known (hl : Bool) (pal : List Textures.Rgb) {name d : List Byte} {w h : Nat} (hb : Bare name w h d) :
    ∃ t : Texture, embedded hl pal d = .ok (some t) ∧ t.w = w ∧ t.h = h ∧ t.mw = w ∧ t.mh = h ∧ t.pixels = [] := by
  obtain ⟨v, hv, e1, e2, e3, -⟩ := Textures.mip_fields d hb.1.ge
  obtain ⟨hlen, -, -, hw, hh, h0, -⟩ := hb
  refine ⟨⟨w, h, none, w, h, [], ⟨0, 0, 0⟩⟩, ?_, rfl, rfl, rfl, rfl, rfl⟩
  unfold embedded loadMip
  rw [if_pos hlen.ge, hv]
  simp only [Outcome.ok_bind, Bool.false_eq_true, if_false, e1, e2, e3, h0, hw, hh, Int.toNat_natCast, le_refl, if_true]

/-- **C236**: the other tools can read all textures, if the names in the copied files end within their 16 bytes. -/
theorem readable_partial (o : DataOptions) (hl : Bool) {find : List Byte → Option Hit} {names : List (List Byte)} {ts : List Tex}
    (hn : ∀ n ∈ names, 0 ∉ n ∧ ∀ ext f, find n = some ⟨ext, some f⟩ → 40 ≤ f.length ∧ (0 ∈ f.take 16 ∨ ext = true ∨ o.notex = true))
    (h : loadTextureData o hl find names = .ok ts) : ∀ t ∈ ts, BspFile.Spec.TexOk t := by
  intro t ht
  obtain ⟨i, hi⟩ := List.getElem?_of_mem ht
  obtain ⟨hlen, hall⟩ := one_each o hl find names h
  have hlt : i < names.length := by rw [← hlen]; exact (List.getElem?_eq_some_iff.mp hi).1
  obtain ⟨t', ht', hd⟩ := hall i names[i] (List.getElem?_eq_getElem hlt)
  rw [hi] at ht'
  cases ht'
  obtain ⟨h0, hf⟩ := hn names[i] (List.getElem_mem hlt)
  have key : ∀ w h, HeaderOnly o names[i] w h t → BspFile.Spec.TexOk t := by
    intro w h hh
    by_cases hs : NotStored o names[i] w h
    · rw [hh.1 hs]; trivial
    · obtain ⟨d, rfl, hb⟩ := hh.2 hs
      exact Or.inr (bare_ok hb)
  by_cases hm : Missing find names[i]
  · obtain ⟨u, hu, hh⟩ := not_found o hl h0 hm
    rw [hd] at hu; cases hu
    exact key _ _ hh
  · simp only [Missing, not_forall, not_not] at hm
    obtain ⟨ext, f, e⟩ := hm
    obtain ⟨h40, hz⟩ := hf ext f e
    by_cases hc : o.notex = true ∨ ext = true
    · obtain ⟨u, hu, hh⟩ := not_copied o hl h0 ⟨e, h40⟩ hc
      rw [hd] at hu; cases hu
      exact key _ _ hh
    · simp only [not_or, Bool.not_eq_true] at hc
      rw [hc.2] at e
      have hu := copied o hl ⟨e, h40⟩ hc.1
      rw [hd] at hu; cases hu
      simp only [hc.1, hc.2, Bool.false_eq_true, or_false] at hz
      exact Or.inr ⟨h40, hz⟩

/-- Any file with the name of a texture that is 40 bytes long is taken for a texture: here a text in the working directory.
Reading the BSP file is undefined then. -/
theorem any_file_copied (o : DataOptions) (hl : Bool) (name : List Byte) (ho : o.notex = false) :
    ∃ ts, loadTextureData o hl (fun _ => some ⟨false, some (List.replicate 40 65)⟩) [name] = .ok ts ∧
      readLump ⟨texBytes 0 ts, 0, false⟩ .tex 0 (texBytes 0 ts).length = .ub := by
  refine ⟨[some (List.replicate 40 65)], ?_, by decide +kernel⟩
  have := copied o hl (find := fun _ => some ⟨false, some (List.replicate 40 65)⟩) (name := name)
    (f := List.replicate 40 65) ⟨rfl, by simp⟩ ho
  simp only [loadTextureData, this, Outcome.ok_bind]

/-- A shorter file is read beyond its end. -/
theorem short_file_ub (o : DataOptions) (hl : Bool) (name : List Byte) :
    textureData o hl (fun _ => some ⟨false, some (List.replicate 39 65)⟩) name = .ub := by
  have : loadHeader hl (some ⟨false, some (List.replicate 39 65)⟩) = .ub := by cases hl <;> rfl
  simp only [textureData, this, Outcome.ub_bind]

/-- Two names with the same first 15 bytes have the same headers. -/
theorem long_names_alike (o : DataOptions) (hl : Bool) (pre : List Byte) (a b : List Byte) (hp : pre.length = 15)
    (ha : a ≠ []) (hb : b ≠ []) (find : List Byte → Option Hit) (hfa : Missing find (pre ++ a)) (hfb : Missing find (pre ++ b)) :
    textureData o hl find (pre ++ a) = textureData o hl find (pre ++ b) := by
  have hla := List.length_pos_iff.mpr ha
  have hlb := List.length_pos_iff.mpr hb
  have e : headerName (pre ++ a) = headerName (pre ++ b) := by
    unfold headerName
    rw [if_pos (by simp; omega), if_pos (by simp; omega), List.take_left' hp, List.take_left' hp]
  cases pre with
  | nil => simp at hp
  | cons c l =>
    have e1 := loadHeader_none (hl := hl) hfa
    have e2 := loadHeader_none (hl := hl) hfb
    unfold textureData
    rw [e1, e2]
    simp only [Outcome.ok_bind, withoutImages, isNull, headerData, e]
    rfl

/-- Files for the examples: a texture of 16 times 32 pixels in a WAD. -/
private def wad (external : Bool) (name : List Byte) : Option Hit :=
  if name = [119, 97] then some ⟨external, some (headerData [119, 97] 16 32 ++ [7])⟩ else none

-- With a WAD, another that is not to be copied, `-notex`, and the wish for textures of size 0.
example : loadTextureData ⟨false, false⟩ false (wad false) [[119, 97], [98]] = .ok [some (headerData [119, 97] 16 32 ++ [7]), none] := by
  decide +kernel
example : loadTextureData ⟨false, true⟩ true (wad true) [[98], [119, 97]] = .ok [some (headerData [98] 0 0), some (headerData [119, 97] 16 32)] := by
  decide +kernel
example : Source (wad true) [119, 97] true (headerData [119, 97] 16 32 ++ [7]) ∧ Missing (wad true) [98] := by
  refine ⟨⟨rfl, by decide +kernel⟩, fun ext f => by simp [wad]⟩
example : NotStored ⟨false, false⟩ [98] 0 0 ∧ ¬ NotStored ⟨false, true⟩ [98] 0 0 ∧ ¬ NotStored ⟨true, false⟩ [119, 97] 16 32 := by
  simp [NotStored]
example : Bare [98] 0 0 (headerData [98] 0 0) := headerData_bare _ _ _ (by norm_num) (by norm_num)

end Verif.Miptex
