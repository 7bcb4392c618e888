import Verif.Miptex.DataSpec
import Verif.Textures.Lemmas

namespace Verif.Miptex

open Verif.Stream Verif.BspFile Spec
open Verif.Textures.Spec (u32At i32At bytes)
open Verif.Textures (mip_fields loadMip)

theorem headerName_length (name : List Byte) : (headerName name).length = 16 := by
  unfold headerName
  by_cases h : 16 ≤ name.length
  · simp [h]
  · simp [h]; omega

theorem headerName_getD (name : List Byte) (i : Nat) (h : i < 15) : (headerName name).getD i 0 = name.getD i 0 := by
  unfold headerName
  by_cases h16 : 16 ≤ name.length
  · simp only [h16, if_true, List.getD_eq_getElem?_getD]
    rw [List.getElem?_append_left (by simp; omega), List.getElem?_take_of_lt h]
  · simp only [h16, if_false, List.getD_eq_getElem?_getD]
    by_cases hi : i < name.length
    · rw [List.getElem?_append_left hi]
    · rw [List.getElem?_append_right (by omega), List.getElem?_eq_none (l := name) (by omega), List.getElem?_replicate]
      split <;> rfl

theorem headerName_last (name : List Byte) : (headerName name).getD 15 0 = 0 := by
  unfold headerName
  by_cases h16 : 16 ≤ name.length
  · simp only [h16, if_true, List.getD_eq_getElem?_getD]
    rw [List.getElem?_append_right (by simp), List.getElem?_replicate]
    split <;> rfl
  · simp only [h16, if_false, List.getD_eq_getElem?_getD]
    rw [List.getElem?_append_right (by omega), List.getElem?_replicate]
    split <;> rfl

theorem u32_encode (w : Nat) (h : w < 2 ^ 32) : leDecode (u32.encode (w : Int)) = w := by
  unfold Scalar.encode
  rw [leDecode_leEncode]
  norm_num at h ⊢
  omega

theorem encode_len (k : Scalar) (v : Int) : (k.encode v).length = k.bytes := by simp [Scalar.encode]

theorem at_append {a b c : List Byte} {o : Nat} (ha : a.length = o) (hb : b.length = 4) :
    u32At (a ++ b ++ c) o = leDecode b := by
  unfold u32At
  rw [List.append_assoc, List.drop_left' ha, List.take_left' hb]

theorem zero_at : leDecode (i32.encode 0) = 0 := by decide

theorem headerData_bare (name : List Byte) (w h : Nat) (hw : w < 2 ^ 32) (hh : h < 2 ^ 32) :
    Bare name w h (headerData name w h) := by
  have hn := headerName_length name
  have h4 : ∀ v, (u32.encode v).length = 4 := fun v => encode_len u32 v
  have h4' : ∀ v, (i32.encode v).length = 4 := fun v => encode_len i32 v
  have hz : ∀ o, u32At (headerData name w h) o = 0 → i32At (headerData name w h) o = 0 := by
    intro o e; simp [i32At, e]
  refine ⟨by simp [headerData, hn, h4, h4'], fun i hi => ?_, ?_, ?_, ?_, hz _ ?_, hz _ ?_, hz _ ?_, hz _ ?_⟩
  · rw [← headerName_getD name i hi]
    simp only [headerData, List.append_assoc, List.getD_eq_getElem?_getD]
    rw [List.getElem?_append_left (by omega)]
  · have := headerName_last name
    simp only [headerData, List.append_assoc, List.getD_eq_getElem?_getD] at this ⊢
    rw [List.getElem?_append_left (by omega), this]
  · rw [← u32_encode w hw]
    have := at_append (c := u32.encode (h : Int) ++ i32.encode 0 ++ i32.encode 0 ++ i32.encode 0 ++ i32.encode 0) hn (h4 w)
    simpa only [headerData, List.append_assoc, u32_encode w hw] using this
  · have := at_append (a := headerName name ++ u32.encode (w : Int)) (b := u32.encode (h : Int))
      (c := i32.encode 0 ++ i32.encode 0 ++ i32.encode 0 ++ i32.encode 0) (o := 20) (by simp [hn, h4]) (h4 h)
    simpa only [headerData, List.append_assoc, u32_encode h hh] using this
  · have := at_append (a := headerName name ++ u32.encode (w : Int) ++ u32.encode (h : Int)) (b := i32.encode 0)
      (c := i32.encode 0 ++ i32.encode 0 ++ i32.encode 0) (o := 24) (by simp [hn, h4]) (h4' 0)
    simpa only [headerData, List.append_assoc, zero_at] using this
  · have := at_append (a := headerName name ++ u32.encode (w : Int) ++ u32.encode (h : Int) ++ i32.encode 0)
      (b := i32.encode 0) (c := i32.encode 0 ++ i32.encode 0) (o := 28) (by simp [hn, h4, h4']) (h4' 0)
    simpa only [headerData, List.append_assoc, zero_at] using this
  · have := at_append (a := headerName name ++ u32.encode (w : Int) ++ u32.encode (h : Int) ++ i32.encode 0 ++ i32.encode 0)
      (b := i32.encode 0) (c := i32.encode 0) (o := 32) (by simp [hn, h4, h4']) (h4' 0)
    simpa only [headerData, List.append_assoc, zero_at] using this
  · have := at_append (a := headerName name ++ u32.encode (w : Int) ++ u32.encode (h : Int) ++ i32.encode 0 ++ i32.encode 0 ++
      i32.encode 0) (b := i32.encode 0) (c := []) (o := 36) (by simp [hn, h4, h4']) (h4' 0)
    simpa only [headerData, List.append_assoc, zero_at, List.append_nil] using this

theorem loadHeader_some {hl ext : Bool} {f : List Byte} (h : 40 ≤ f.length) :
    loadHeader hl (some ⟨ext, some f⟩) = .ok (some ⟨u32At f 16, u32At f 20, ext, f⟩) := by
  obtain ⟨v, hv, e1, e2, -⟩ := mip_fields f h
  simp only [loadHeader, loadMip, hv, e1, e2, Outcome.ok_bind, Bool.false_eq_true, if_false, if_true, Option.map_some,
    Int.toNat_natCast]

theorem loadHeader_none {hl : Bool} {hit : Option Hit} (h : ∀ ext f, hit ≠ some ⟨ext, some f⟩) :
    loadHeader hl hit = .ok none := by
  match hit with
  | none => rfl
  | some ⟨_, none⟩ => rfl
  | some ⟨e, some f⟩ => exact absurd rfl (h e f)

theorem u32At_lt (f : List Byte) (o : Nat) : u32At f o < 2 ^ 32 := Textures.leDecode_take4 _

theorem isNull_iff (o : DataOptions) {name : List Byte} (hn : 0 ∉ name) (w h : Nat) :
    isNull o name w h = true ↔ NotStored o name w h := by
  unfold isNull NotStored
  cases name with
  | nil => simp
  | cons a l =>
    have : a ≠ 0 := fun e => hn (by simp [e])
    simp only [List.headD_cons, this, false_or, reduceCtorEq, decide_eq_true_eq]

theorem withoutImages_spec (o : DataOptions) {name : List Byte} (hn : 0 ∉ name) (w h : Nat) (hw : w < 2 ^ 32) (hh : h < 2 ^ 32) :
    HeaderOnly o name w h (withoutImages o name w h) := by
  unfold withoutImages
  constructor
  · intro hs
    rw [if_pos ((isNull_iff o hn w h).mpr hs)]
  · intro hs
    rw [if_neg (fun e => hs ((isNull_iff o hn w h).mp e))]
    exact ⟨_, rfl, headerData_bare name w h hw hh⟩

theorem bare_ok {name : List Byte} {w h : Nat} {d : List Byte} (hb : Bare name w h d) : 40 ≤ d.length ∧ 0 ∈ d.take 16 := by
  refine ⟨hb.1.ge, ?_⟩
  have h15 : d.getD 15 0 = 0 := hb.2.2.1
  have hl : 15 < d.length := by rw [hb.1]; omega
  rw [List.getD_eq_getElem _ _ hl] at h15
  rw [← h15]
  exact List.mem_take_iff_getElem.mpr ⟨15, by omega, rfl⟩

end Verif.Miptex
