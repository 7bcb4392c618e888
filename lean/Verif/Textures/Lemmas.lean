import Verif.Textures.Spec
import Verif.Stream.Lemmas
import Mathlib.Tactic.FieldSimp
import Mathlib.Tactic.Linarith
import Mathlib.Algebra.Order.Floor.Semiring
import Mathlib.Data.List.GetD

namespace Verif.Textures

open Verif.Stream Spec

/-! ### Reading -/

/-- The values of records at the start of bytes. -/
def decodeFields : List Scalar → List Byte → List Int
  | [], _ => []
  | k :: ks, bs => k.decode (bs.take k.bytes) :: decodeFields ks (bs.drop k.bytes)

theorem read_some (mem : List Byte) (p n : Nat) (hn : 0 < n) (h : p + n ≤ mem.length) :
    IStream.read ⟨mem, p, false⟩ n = .ok (some ((mem.drop p).take n), ⟨mem, (p + n : Nat), false⟩) := by
  unfold IStream.read
  rw [if_neg (by simp), if_neg (by simp only; omega), if_pos (by simp only; omega)]
  simp

theorem fields_some (ks : List Scalar) (hk : ∀ k ∈ ks, 0 < k.bytes) : ∀ (mem : List Byte) (p : Nat),
    p + width ks ≤ mem.length →
    IStream.fields ⟨mem, p, false⟩ ks = .ok (some (decodeFields ks (mem.drop p)), ⟨mem, (p + width ks : Nat), false⟩) := by
  induction ks with
  | nil => intro mem p _; simp [IStream.fields, decodeFields, width]
  | cons k ks ih =>
    intro mem p h
    have hw : width (k :: ks) = k.bytes + width ks := by simp [width]
    rw [hw] at h
    unfold IStream.fields IStream.scalar
    rw [read_some mem p k.bytes (hk k (by simp)) (by omega)]
    simp only [Outcome.ok_bind, Outcome.pure_eq, Option.map_some]
    rw [ih (fun k' hk' => hk k' (by simp [hk'])) mem (p + k.bytes) (by omega)]
    simp only [Outcome.ok_bind, decodeFields, hw, List.drop_drop]
    rw [Nat.add_assoc]

theorem leDecode_take4 (bs : List Byte) : leDecode (bs.take 4) < 2 ^ 32 := by
  have := leDecode_lt (bs.take 4)
  have hl : (bs.take 4).length ≤ 4 := by simp
  have : (256 : Nat) ^ (bs.take 4).length ≤ 256 ^ 4 := Nat.pow_le_pow_right (by omega) hl
  omega

theorem u32_decode (bs : List Byte) (h : leDecode bs < 2 ^ 32) : u32.decode bs = (leDecode bs : Int) := by
  unfold Scalar.decode Scalar.wrap
  simp only [Bool.false_and, Bool.false_eq_true, if_false]
  exact Int.emod_eq_of_lt (by omega) (by exact_mod_cast h)

theorem u16_decode (bs : List Byte) (h : leDecode bs < 2 ^ 16) : u16.decode bs = (leDecode bs : Int) := by
  unfold Scalar.decode Scalar.wrap
  simp only [Bool.false_and, Bool.false_eq_true, if_false]
  exact Int.emod_eq_of_lt (by omega) (by exact_mod_cast h)

theorem i32_decode (bs : List Byte) (h : leDecode bs < 2 ^ 32) :
    i32.decode bs = if leDecode bs < 2 ^ 31 then (leDecode bs : Int) else (leDecode bs : Int) - 2 ^ 32 := by
  unfold Scalar.decode Scalar.wrap
  have e : (leDecode bs : Int) % ((2 ^ (8 * 4) : Nat) : Int) = (leDecode bs : Int) :=
    Int.emod_eq_of_lt (by omega) (by exact_mod_cast h)
  simp only [Bool.true_and, decide_eq_true_eq]
  rw [e]
  norm_num
  by_cases h1 : leDecode bs < 2147483648
  · rw [if_neg (by omega), if_pos h1]
  · rw [if_pos (by omega), if_neg h1]

theorem mip_fields (f : List Byte) (h : 40 ≤ f.length) : ∃ v : List Int,
    (IStream.open f).fields mipFields = .ok (some v, ⟨f, (40 : Nat), false⟩) ∧ v.getD 16 0 = u32At f 16 ∧
      v.getD 17 0 = u32At f 20 ∧ v.getD 18 0 = i32At f 24 ∧ v.getD 21 0 = i32At f 36 := by
  have := fields_some mipFields (by simp [mipFields]) f 0 (by simpa [mipFields, width] using h)
  refine ⟨_, this, ?_, ?_, ?_, ?_⟩
  · simp only [List.drop_zero, mipFields, List.replicate, decodeFields, List.cons_append, List.nil_append, List.getD_cons_succ,
      List.getD_cons_zero, List.drop_drop]
    exact u32_decode _ (leDecode_take4 _)
  · simp only [List.drop_zero, mipFields, List.replicate, decodeFields, List.cons_append, List.nil_append, List.getD_cons_succ,
      List.getD_cons_zero, List.drop_drop]
    exact u32_decode _ (leDecode_take4 _)
  · simp only [List.drop_zero, mipFields, List.replicate, decodeFields, List.cons_append, List.nil_append, List.getD_cons_succ,
      List.getD_cons_zero, List.drop_drop]
    exact i32_decode _ (leDecode_take4 _)
  · simp only [List.drop_zero, mipFields, List.replicate, decodeFields, List.cons_append, List.nil_append, List.getD_cons_succ,
      List.getD_cons_zero, List.drop_drop]
    exact i32_decode _ (leDecode_take4 _)

theorem decode_i8_zero (b : Byte) : i8.decode [b] = 0 ↔ b = 0 := by
  revert b; decide +kernel

theorem decodeFields_i8 (n : Nat) : ∀ (ks : List Scalar) (bs : List Byte), n ≤ bs.length →
    decodeFields (List.replicate n i8 ++ ks) bs = (bs.take n).map (fun b => i8.decode [b]) ++ decodeFields ks (bs.drop n) := by
  induction n with
  | zero => intro ks bs _; simp
  | succ n ih =>
    intro ks bs h
    obtain ⟨b, l, rfl⟩ : ∃ b l, bs = b :: l := by
      cases bs with
      | nil => simp at h
      | cons b l => exact ⟨b, l, rfl⟩
    simp only [List.replicate_succ, List.cons_append, decodeFields, List.take_succ_cons, List.take_zero, List.drop_succ_cons,
      List.drop_zero, List.map_cons]
    rw [ih ks l (by simpa using h)]

theorem wal_fields (f : List Byte) (h : 100 ≤ f.length) : ∃ v : List Int,
    (IStream.open f).fields walFields = .ok (some v, ⟨f, (100 : Nat), false⟩) ∧ v.getD 32 0 = u32At f 32 ∧
      v.getD 33 0 = u32At f 36 ∧ v.getD 34 0 = u32At f 40 ∧ (0 ∈ (v.drop 38).take 32 ↔ 0 ∈ bytes f 56 32) := by
  have := fields_some walFields (by simp [walFields]) f 0 (by simpa [walFields, width] using h)
  have e : decodeFields walFields f = (f.take 32).map (fun b => i8.decode [b]) ++
      ([u32.decode ((f.drop 32).take 4), u32.decode ((f.drop 36).take 4), u32.decode ((f.drop 40).take 4),
        u32.decode ((f.drop 44).take 4), u32.decode ((f.drop 48).take 4), u32.decode ((f.drop 52).take 4)] ++
      (((f.drop 56).take 32).map (fun b => i8.decode [b]) ++ decodeFields [i32, i32, i32] (f.drop 88))) := by
    unfold walFields
    simp only [List.append_assoc]
    rw [decodeFields_i8 32 _ f (by omega)]
    simp only [List.cons_append, List.nil_append, decodeFields, List.drop_drop]
    rw [decodeFields_i8 32 _ (f.drop (32 + 4 + 4 + 4 + 4 + 4 + 4)) (by simp; omega)]
    simp only [decodeFields, List.drop_drop]
  have hl : ((f.take 32).map (fun b => i8.decode [b])).length = 32 := by simp; omega
  refine ⟨_, this, ?_, ?_, ?_, ?_⟩
  · rw [List.drop_zero, e, List.getD_append_right _ _ _ _ (by omega), hl]
    exact u32_decode _ (leDecode_take4 _)
  · rw [List.drop_zero, e, List.getD_append_right _ _ _ _ (by omega), hl]
    exact u32_decode _ (leDecode_take4 _)
  · rw [List.drop_zero, e, List.getD_append_right _ _ _ _ (by omega), hl]
    exact u32_decode _ (leDecode_take4 _)
  · rw [List.drop_zero, e, List.drop_append, hl, List.drop_eq_nil_of_le (by omega)]
    simp only [List.nil_append, List.cons_append, List.drop_succ_cons, List.drop_zero]
    rw [List.take_append_of_le_length (by simp; omega)]
    unfold bytes
    rw [List.take_of_length_le (by simp)]
    simp only [List.mem_map, decode_i8_zero]
    constructor
    · rintro ⟨b, hb, rfl⟩; exact hb
    · intro hb; exact ⟨0, hb, rfl⟩

theorem convert_map (pal : List Rgb) (hp : 256 ≤ pal.length) : ∀ l : List Byte,
    convertPaletted pal l = .ok (l.map (pix pal)) := by
  intro l
  induction l with
  | nil => rfl
  | cons p ps ih =>
    unfold convertPaletted
    have hlt : p.toNat < pal.length := by have := p.isLt; omega
    rw [ih]
    simp only [Outcome.readAt, List.getElem?_eq_getElem hlt, Outcome.ok_bind, Outcome.pure_eq, List.map_cons, pix]
    rw [List.getD_eq_getElem?_getD, List.getElem?_eq_getElem hlt]
    rfl

theorem convert_length (pal : List Rgb) : ∀ (l : List Byte) (px : List Rgba), convertPaletted pal l = .ok px →
    px.length = l.length := by
  intro l
  induction l with
  | nil => intro px h; cases h; rfl
  | cons p ps ih =>
    intro px h
    unfold convertPaletted at h
    rw [Outcome.bind_eq_ok] at h
    obtain ⟨c, _, h⟩ := h
    rw [Outcome.bind_eq_ok] at h
    obtain ⟨r, hr, h⟩ := h
    cases h
    simp [ih r hr]

theorem colours_get : ∀ (n : Nat) (l : List Byte), l.length = 3 * n →
    colours l = (List.range n).map fun i => ⟨l.getD (3 * i) 0, l.getD (3 * i + 1) 0, l.getD (3 * i + 2) 0⟩ := by
  intro n
  induction n with
  | zero => intro l h; cases l with
    | nil => rfl
    | cons a l => simp at h
  | succ n ih =>
    intro l h
    match l, h with
    | r :: g :: b :: l, h =>
      simp only [List.length_cons] at h
      rw [colours, ih l (by omega), List.range_succ_eq_map]
      simp only [List.map_cons, List.map_map]
      refine congrArg₂ _ rfl ?_
      apply List.map_congr_left
      intro i _
      simp only [Function.comp, show 3 * (i + 1) = 3 * i + 1 + 1 + 1 by ring, show 3 * i + 1 + 1 + 1 + 1 = 3 * i + 1 + 1 + 1 + 1 from rfl,
        show 3 * i + 1 + 1 + 1 + 2 = 3 * i + 2 + 1 + 1 + 1 by ring, List.getD_cons_succ]
    | [], h => simp at h
    | [a], h => simp at h; omega
    | [a, b], h => simp at h; omega

theorem colours_palette (l : List Byte) (h : l.length = 768) : colours l = palette l := colours_get 256 l (by omega)

theorem palette_length (l : List Byte) : (palette l).length = 256 := by simp [palette]

theorem readInto_some (mem : List Byte) (p n : Nat) (hn : 0 < n) (h : p + n ≤ mem.length) :
    readInto ⟨mem, p, false⟩ n = .ok (bytes mem p n, ⟨mem, (p + n : Nat), false⟩) := by
  unfold readInto
  rw [read_some mem p n hn h]
  rfl

theorem readInto_length (s : IStream) (n : Nat) (r : List Byte × IStream) (h : readInto s n = .ok r) : r.1.length = n := by
  unfold readInto at h
  rw [Outcome.bind_eq_ok] at h
  obtain ⟨a, ha, h⟩ := h
  cases h
  unfold IStream.read at ha
  split at ha
  · cases ha; simp
  · split at ha
    · cases ha; simp
    · split at ha
      · cases ha
        rename_i hb
        simp; omega
      · cases ha

theorem mipPalette_own (f : List Byte) (q : Nat) (h1 : u32At f 16 / 8 * (u32At f 20 / 8) < 2 ^ 31)
    (h2 : i32At f 36 + (u32At f 16 / 8 * (u32At f 20 / 8) : Nat) < 2 ^ 31) :
    mipPalette f ⟨f, q, false⟩ (u32At f 16) (u32At f 20) (i32At f 36) = .ok (ownPalette f) := by
  unfold mipPalette ownPalette
  generalize hm : u32At f 16 / 8 * (u32At f 20 / 8) = m at *
  have e0 : mul32 (u32At f 16 / 8) (u32At f 20 / 8) = m := by unfold mul32; rw [hm]; exact Nat.mod_eq_of_lt (by omega)
  rw [e0]
  have e1 : i32.wrap (m : Int) = m := wrap_of_holds i32 (by decide) _ (by
    constructor
    · have : i32.lo ≤ 0 := by decide
      omega
    · have : i32.hi = 2 ^ 31 - 1 := by decide
      rw [this]; omega)
  simp only [e1]
  by_cases hp : i32At f 36 ≤ 0
  · rw [if_pos hp, if_neg (by omega)]
  · rw [if_neg hp, if_neg (by omega)]
    obtain ⟨o, ho⟩ : ∃ o : Nat, i32At f 36 = o := ⟨(i32At f 36).toNat, by omega⟩
    rw [ho] at hp h2 ⊢
    have e2 : ((o : Int) + m + 770) % 2 ^ 64 = ((o + m + 770 : Nat) : Int) := by
      rw [Int.emod_eq_of_lt (by omega) (by omega)]; push_cast; rfl
    rw [e2]
    simp only [Int.toNat_natCast]
    by_cases hl : (f.length : Int) < ((o + m + 770 : Nat) : Int)
    · rw [if_pos hl, if_neg (by omega)]
    · rw [if_neg hl]
      have hs : (IStream.seek ⟨f, (q : Int), false⟩ ((o : Int) + m)) = ⟨f, ((o + m : Nat) : Int), false⟩ := by
        simp [IStream.seek]
      rw [hs]
      unfold IStream.scalar
      rw [read_some f (o + m) u16.bytes (by decide) (by simp only; omega)]
      simp only [Outcome.ok_bind, Outcome.pure_eq, Option.map_some]
      have hlt : leDecode ((f.drop (o + m)).take 2) < 2 ^ 16 := by
        have := leDecode_lt ((f.drop (o + m)).take 2)
        have hl : ((f.drop (o + m)).take 2).length ≤ 2 := by simp
        have : (256 : Nat) ^ ((f.drop (o + m)).take 2).length ≤ 256 ^ 2 := Nat.pow_le_pow_right (by omega) hl
        omega
      rw [u16_decode _ hlt]
      unfold u16At
      by_cases hk : leDecode ((f.drop (o + m)).take 2) = 256
      · rw [if_neg (by omega), if_pos (by omega), readInto_some f _ 768 (by omega) (by omega)]
        simp only [Outcome.ok_bind]
        rw [colours_palette _ (by simp [bytes]; omega)]
      · rw [if_pos (by omega), if_neg (by omega)]

end Verif.Textures
