import Verif.BspFile.File
import Verif.BspFile.LumpSpec
import Mathlib.Tactic.Ring

namespace Verif.BspFile

open Verif Verif.Stream

/-! ### Padding -/

theorem padTo4_lt (n : Nat) : padTo4 n < 4 := by unfold padTo4; split <;> omega

theorem padTo4_dvd (n : Nat) : (n + padTo4 n) % 4 = 0 := by unfold padTo4; split <;> omega

theorem padTo4_congr {m n : Nat} (h : m % 4 = n % 4) : padTo4 m = padTo4 n := by unfold padTo4; rw [h]

theorem padTo4_of_dvd {n : Nat} (h : n % 4 = 0) : padTo4 n = 0 := by unfold padTo4; simp [h]

/-! ### int -/

theorem int32_ok {v : Int} (h1 : -2147483648 ≤ v) (h2 : v ≤ 2147483647) : int32 v = .ok v := by
  unfold int32
  rw [if_pos]
  have e1 : i32.lo = -2147483648 := by decide
  have e2 : i32.hi = 2147483647 := by decide
  rw [e1, e2]
  exact ⟨h1, h2⟩

theorem i32_holds {v : Int} (h1 : -2147483648 ≤ v) (h2 : v ≤ 2147483647) : i32.Holds v := by
  have e1 : i32.lo = -2147483648 := by decide
  have e2 : i32.hi = 2147483647 := by decide
  unfold Scalar.Holds
  rw [e1, e2]
  exact ⟨h1, h2⟩

theorem i32_wrap {v : Int} (h1 : -2147483648 ≤ v) (h2 : v ≤ 2147483647) : i32.wrap v = v :=
  wrap_of_holds _ (by decide) _ (i32_holds h1 h2)

theorem u64_wrap {v : Int} (h1 : 0 ≤ v) (h2 : v < 18446744073709551616) : u64.wrap v = v := by
  refine wrap_of_holds _ (by decide) _ ?_
  have e1 : u64.lo = 0 := by decide
  have e2 : u64.hi = 18446744073709551615 := by decide
  unfold Scalar.Holds
  rw [e1, e2]
  omega

theorem i64_wrap {v : Int} (h1 : 0 ≤ v) (h2 : v < 9223372036854775808) : i64.wrap v = v := by
  refine wrap_of_holds _ (by decide) _ ?_
  have e1 : i64.lo = -9223372036854775808 := by decide
  have e2 : i64.hi = 9223372036854775807 := by decide
  unfold Scalar.Holds
  rw [e1, e2]
  omega

theorem u32_holds {v : Int} (h1 : 0 ≤ v) (h2 : v < 4294967296) : u32.Holds v := by
  have e1 : u32.lo = 0 := by decide
  have e2 : u32.hi = 4294967295 := by decide
  unfold Scalar.Holds
  rw [e1, e2]
  omega

theorem u32_wrap {v : Int} (h1 : 0 ≤ v) (h2 : v < 4294967296) : u32.wrap v = v :=
  wrap_of_holds _ (by decide) _ (u32_holds h1 h2)

/-! ### Reading any bytes -/

/-- The values of the fields in a list of bytes. -/
def decodeFields : List Scalar → List Byte → List Int
  | [], _ => []
  | k :: ks, bs => k.decode (bs.take k.bytes) :: decodeFields ks (bs.drop k.bytes)

theorem fields_any (ks : List Scalar) (hk : ∀ k ∈ ks, 0 < k.bytes) : ∀ (mem : List Byte) (p : Nat),
    p + width ks ≤ mem.length →
    IStream.fields ⟨mem, p, false⟩ ks = .ok (some (decodeFields ks (mem.drop p)), ⟨mem, (p + width ks : Nat), false⟩) := by
  induction ks with
  | nil => intro mem p _; simp [IStream.fields, decodeFields, width]
  | cons k ks ih =>
    intro mem p h
    have hb := hk k (by simp)
    have hw : width (k :: ks) = k.bytes + width ks := by simp [width]
    rw [hw] at h ⊢
    have hlen : ((mem.drop p).take k.bytes).length = k.bytes := by simp; omega
    have h1 := read_here mem ((mem.drop p).take k.bytes) ((mem.drop p).drop k.bytes) p
      (List.take_append_drop _ _).symm (by intro e; rw [e] at hlen; simp at hlen; omega)
    rw [hlen] at h1
    have h2 := ih (fun k hk' => hk k (by simp [hk'])) mem (p + k.bytes) (by omega)
    simp only [IStream.fields, IStream.scalar, h1, Outcome.ok_bind, Outcome.pure_eq, Option.map_some, h2,
      decodeFields, List.drop_drop, Nat.add_assoc]

theorem decodeFields_take8 (n : Nat) (ks : List Scalar) : ∀ bs : List Byte, n ≤ bs.length →
    (decodeFields (List.replicate n i8 ++ ks) bs).take n = (bs.take n).map (fun b => i8.decode [b]) := by
  induction n with
  | zero => simp
  | succ n ih =>
    intro bs h
    cases bs with
    | nil => simp at h
    | cons b bs =>
      simp only [List.length_cons] at h
      simp [List.replicate_succ, decodeFields, ih bs (by omega)]

theorem i8_decode_zero : i8.decode [0] = 0 := by decide

theorem readMiptex_here {mem d rest : List Byte} {p : Nat} (h : mem.drop p = d ++ rest) (hd : 40 ≤ d.length)
    (h0 : 0 ∈ d.take 16) :
    readMiptex ⟨mem, p, false⟩ d.length = .ok (d, ⟨mem, (p + d.length : Nat), false⟩) := by
  have h1 := read_here mem d rest p h (by intro e; subst e; simp at hd)
  have h2 := fields_any miptexTypes (by decide) d 0 (by
    have : width miptexTypes = 40 := by decide
    omega)
  unfold readMiptex
  rw [h1]
  simp only [need, Outcome.ok_bind]
  have e : IStream.open d = ⟨d, (0 : Nat), false⟩ := rfl
  rw [e, h2]
  simp only [defined, Outcome.ok_bind, List.drop_zero]
  rw [if_pos]
  · rfl
  · have := decodeFields_take8 16 ([u32, u32] ++ List.replicate 4 i32) d (by omega)
    unfold miptexTypes
    rw [List.append_assoc, this]
    refine List.mem_map.mpr ⟨0, h0, i8_decode_zero⟩

/-! ### Textures -/

theorem texOffsets_length (p hs : Nat) : ∀ (ts : List Tex) (off : Nat), (texOffsets p hs off ts).length = ts.length := by
  intro ts
  induction ts with
  | nil => intro off; rfl
  | cons t ts ih => intro off; cases t <;> simp [texOffsets, ih]

theorem nextOffset_none (len : Int) (p hs : Nat) : ∀ (ts : List Tex) (off : Nat), ts.any Option.isSome = false →
    nextOffset len (texOffsets p hs off ts) = len := by
  intro ts
  induction ts with
  | nil => intro off _; rfl
  | cons t ts ih =>
    intro off h
    cases t with
    | none =>
      have := ih off (by simpa using h)
      simpa [nextOffset, texOffsets] using this
    | some d => simp at h

theorem nextOffset_some (len : Int) (p hs : Nat) : ∀ (ts : List Tex) (off : Nat), ts.any Option.isSome = true →
    hs + off < 2147483648 → nextOffset len (texOffsets p hs off ts) = (hs + off : Nat) := by
  intro ts
  induction ts with
  | nil => intro off h; simp at h
  | cons t ts ih =>
    intro off h hb
    cases t with
    | none =>
      have := ih off (by simpa using h) hb
      simpa [nextOffset, texOffsets] using this
    | some d =>
      have e : i32.wrap (hs + off : Nat) = (hs + off : Nat) := i32_wrap (by omega) (by omega)
      simp only [texOffsets, nextOffset, e]
      rw [List.find?_cons_of_pos (by simp; omega)]

theorem texBody_none : ∀ (ts : List Tex) (pos : Nat), ts.any Option.isSome = false → texBody pos ts = [] := by
  intro ts
  induction ts with
  | nil => intro pos _; rfl
  | cons t ts ih =>
    intro pos h
    cases t with
    | none => simpa [texBody] using ih pos (by simpa using h)
    | some d => simp at h

theorem texBody_some : ∀ (ts : List Tex) (pos : Nat), ts.any Option.isSome = true →
    ∃ tail, texBody pos ts = List.replicate (padTo4 pos) 0 ++ tail := by
  intro ts
  induction ts with
  | nil => intro pos h; simp at h
  | cons t ts ih =>
    intro pos h
    cases t with
    | none => simpa [texBody] using ih pos (by simpa using h)
    | some d => exact ⟨d ++ texBody (pos + padTo4 pos + d.length) ts, by simp [texBody]⟩

theorem mem_take_append {d z : List Byte} (h : 0 ∈ d.take 16) : 0 ∈ (d ++ z).take 16 := by
  rw [List.take_append]
  exact List.mem_append_left _ h

theorem readTexs_here (p hs len : Nat) (hp : p % 4 = 0) (hh : hs % 4 = 0) (mem : List Byte) (rest : List Byte)
    (hmem : mem.length < 2147483648) (hend : p + len ≤ mem.length) :
    ∀ (ts : List Tex) (off pos : Nat), (∀ t ∈ ts, Spec.TexOk t) → pos + padTo4 pos = p + hs + off → off % 4 = 0 →
      mem.drop pos = texBody pos ts ++ rest → p + len = pos + (texBody pos ts).length →
      ∀ q : Int, ∃ q', readTexs p len ⟨mem, q, false⟩ (texOffsets p hs off ts) =
        .ok (Spec.texLoaded ts, ⟨mem, q', false⟩) := by
  intro ts
  induction ts with
  | nil => intro off pos _ _ _ _ _ q; exact ⟨q, rfl⟩
  | cons t ts ih =>
    intro off pos ht hpos hoff hd hl q
    cases t with
    | none =>
      simp only [texBody] at hd hl
      obtain ⟨q', hq⟩ := ih off pos (fun t h => ht t (by simp [h])) hpos hoff hd hl q
      refine ⟨q', ?_⟩
      simp only [texOffsets, readTexs]
      rw [if_pos (by omega), hq]
      rfl
    | some d =>
      simp only [texBody, List.append_assoc] at hd
      simp only [texBody, List.length_append, List.length_replicate] at hl
      have hlt := padTo4_lt pos
      -- where the data starts
      have hd1 : mem.drop (p + hs + off) = d ++ (texBody (pos + padTo4 pos + d.length) ts ++ rest) := by
        have := drop_next hd
        rw [List.length_replicate] at this
        rw [← hpos]
        exact this
      have e : i32.wrap (hs + off : Nat) = (hs + off : Nat) := i32_wrap (by omega) (by omega)
      -- the rest
      have hpad : padTo4 (p + (off + d.length)) = padTo4 (pos + padTo4 pos + d.length) := padTo4_congr (by omega)
      have hpadlt := padTo4_lt (p + (off + d.length))
      have hd2 := drop_next hd1
      have hd3 := padTo4_dvd (p + (off + d.length))
      obtain ⟨q', hq⟩ := ih (off + d.length + padTo4 (p + (off + d.length))) (pos + padTo4 pos + d.length)
        (fun t h => ht t (by simp [h])) (by omega) (by omega)
        (by rw [← hpos] at hd2; exact hd2) (by omega) (p + hs + off + (d ++ List.replicate (if ts.any Option.isSome
          then padTo4 d.length else 0) 0).length : Nat)
      have hpd : padTo4 (p + (off + d.length)) = padTo4 d.length := padTo4_congr (by omega)
      -- the length of the data that is read
      have hnext : nextOffset len (texOffsets p hs (off + d.length + padTo4 (p + (off + d.length))) ts) =
          (hs + off + (d ++ List.replicate (if ts.any Option.isSome then padTo4 d.length else 0) (0 : Byte)).length : Nat) ∧
          ∃ z, mem.drop (p + hs + off) =
            (d ++ List.replicate (if ts.any Option.isSome then padTo4 d.length else 0) (0 : Byte)) ++ z := by
        cases ha : ts.any Option.isSome with
        | true =>
          obtain ⟨tail, htail⟩ := texBody_some ts (pos + padTo4 pos + d.length) ha
          have := congrArg List.length htail
          simp only [List.length_append, List.length_replicate] at this
          constructor
          · rw [nextOffset_some _ _ _ _ _ ha (by omega)]
            simp only [if_true, List.length_append, List.length_replicate]
            push_cast; omega
          · refine ⟨tail ++ rest, ?_⟩
            rw [hd1, htail, ← hpad, hpd]
            simp
        | false =>
          have hb := texBody_none ts (pos + padTo4 pos + d.length) ha
          rw [hb] at hl
          simp only [List.length_nil] at hl
          constructor
          · rw [nextOffset_none _ _ _ _ _ ha]
            simp
            omega
          · exact ⟨rest, by rw [hd1, hb]; simp⟩
      obtain ⟨hn, z, hz⟩ := hnext
      generalize hdd : d ++ List.replicate (if ts.any Option.isSome then padTo4 d.length else 0) (0 : Byte) = dd at *
      simp only [texOffsets, readTexs, Spec.texLoaded, hdd]
      rw [e, if_neg (by omega), int32_ok (by omega) (by omega)]
      simp only [Outcome.ok_bind, hn, IStream.seek, Bool.false_eq_true, if_false]
      have hk := ht (some d) (by simp)
      rcases hk with hk | ⟨hk1, hk2⟩
      · subst hk
        have : dd = [] := by
          rw [← hdd, List.length_nil, padTo4_of_dvd (by rfl)]
          simp
        subst this
        refine ⟨q', ?_⟩
        rw [if_neg (by simp)]
        have e1 : ((p : Int) + (hs + off : Nat)) = ((p + hs + off + ([] : List Byte).length : Nat) : Int) := by
          push_cast; simp; ring
        simp only [Outcome.ok_bind, e1, hq]
        rfl
      · have hdl : 40 ≤ dd.length := by rw [← hdd]; simp; omega
        have hr := readMiptex_here hz hdl (by rw [← hdd]; exact mem_take_append hk2)
        refine ⟨q', ?_⟩
        rw [if_pos (by push_cast; omega)]
        have e1 : (((hs + off + dd.length : Nat) : Int) - (hs + off : Nat)).toNat = dd.length := by push_cast; omega
        have e2 : ((p : Int) + (hs + off : Nat)) = ((p + hs + off : Nat) : Int) := by push_cast; ring
        rw [e1, e2, hr]
        simp only [Outcome.ok_bind, hq]
        rfl

theorem texOffsets_hold (p hs : Nat) : ∀ (ts : List Tex) (off : Nat),
    FieldsHold (List.replicate ts.length i32) (texOffsets p hs off ts) := by
  intro ts
  induction ts with
  | nil => intro off; trivial
  | cons t ts ih =>
    intro off
    cases t with
    | none => exact ⟨i32_holds (by omega) (by omega), ih off⟩
    | some d => exact ⟨wrap_holds _ (by decide) _, ih _⟩

theorem encodeFields_replicate (k : Scalar) : ∀ vs : List Int,
    encodeFields (List.replicate vs.length k) vs = vs.flatMap (fun o => k.encode o) := by
  intro vs
  induction vs with
  | nil => rfl
  | cons v vs ih => simp [List.replicate_succ, encodeFields, ih]

theorem width_replicate (n : Nat) (k : Scalar) : width (List.replicate n k) = n * k.bytes := by
  simp [width]

theorem texHeader_length (p hs : Nat) (ts : List Tex) :
    ((texOffsets p hs 0 ts).flatMap (fun o => i32.encode o)).length = 4 * ts.length := by
  rw [← encodeFields_replicate, texOffsets_length, encodeFields_length _ _ (texOffsets_hold _ _ _ _), width_replicate]
  exact Nat.mul_comm _ _

theorem readTex_here {mem rest : List Byte} {p : Nat} {ts : List Tex} (hp : p % 4 = 0) (hmem : mem.length < 2147483648)
    (ht : ∀ t ∈ ts, Spec.TexOk t) (h : mem.drop p = texBytes p ts ++ rest) :
    ∃ q, readTex ⟨mem, p, false⟩ p (texBytes p ts).length = .ok (.tex (Spec.texLoaded ts), ⟨mem, q, false⟩) := by
  have hl := congrArg List.length h
  have hbl : (texBytes p ts).length = 4 + 4 * ts.length + (texBody (p + (4 + 4 * ts.length)) ts).length := by
    simp only [texBytes, List.length_append, encode_length, texHeader_length]
  simp only [List.length_drop, List.length_append] at hl
  have hpl : p + (texBytes p ts).length ≤ mem.length := by omega
  generalize hL : (texBytes p ts).length = L at *
  simp only [texBytes, List.append_assoc] at h
  have h1 := scalar_here mem _ p i32 (by decide) ts.length (i32_holds (by omega) (by omega)) h
  have h2 := drop_next h
  simp only [encode_length] at h2
  rw [← encodeFields_replicate, texOffsets_length] at h2
  have h3 := fields_here (List.replicate ts.length i32) (by simp) _ mem _ (p + 4) (texOffsets_hold p _ ts 0) h2
  have h4 := drop_next h2
  rw [encodeFields_length _ _ (texOffsets_hold _ _ _ _), width_replicate] at h4
  obtain ⟨q, hq⟩ := readTexs_here p (4 + 4 * ts.length) L hp (by omega) mem rest hmem hpl ts 0 (p + (4 + 4 * ts.length)) ht
    (by rw [padTo4_of_dvd (by omega)]) rfl
    (by rw [show p + 4 + ts.length * i32.bytes = p + (4 + 4 * ts.length) by show p + 4 + ts.length * 4 = _; omega] at h4; exact h4) (by omega) (p + 4 + width (List.replicate ts.length i32) : Nat)
  refine ⟨q, ?_⟩
  unfold readTex
  rw [h1]
  simp only [defined, Outcome.ok_bind]
  rw [if_neg (by omega)]
  simp only [Int.toNat_natCast, h3, need, Outcome.ok_bind, hq]
  simp

/-! ### Visibility -/

theorem readVis_here {mem rest : List Byte} {p : Nat} {offsets : List (List Int)} {bits : List Byte}
    (hmem : mem.length < 2147483648) (ho : ∀ r ∈ offsets, FieldsHold [i32, i32] r) (hne : offsets ≠ [])
    (hb : bits ≠ []) (h : mem.drop p = visBytes offsets bits ++ rest) :
    ∃ q, readVis ⟨mem, p, false⟩ p (visBytes offsets bits).length = .ok (.vis offsets bits, ⟨mem, q, false⟩) := by
  have hn : offsets.length ≠ 0 := by simpa using hne
  have hfl := flatMap_length [i32, i32] offsets ho
  have hw : width [i32, i32] = 8 := by decide
  rw [hw] at hfl
  have hbl : (visBytes offsets bits).length = 4 + offsets.length * 8 + bits.length := by
    unfold visBytes
    rw [if_neg hn]
    simp only [List.length_append, hfl, encode_length]
  have hl := congrArg List.length h
  simp only [List.length_drop, List.length_append] at hl
  have hbp : 0 < bits.length := List.length_pos_iff.mpr hb
  have hpl : p + (visBytes offsets bits).length ≤ mem.length := by omega
  generalize hL : (visBytes offsets bits).length = L at *
  unfold visBytes at h
  rw [if_neg hn] at h
  simp only [List.append_assoc] at h
  have h1 := scalar_here mem _ p i32 (by decide) offsets.length (i32_holds (by omega) (by omega)) h
  have h2 := drop_next h
  simp only [encode_length] at h2
  have h3 := records_here [i32, i32] (by simp) offsets mem _ (p + 4) ho h2
  have h4 := drop_next h2
  rw [hfl] at h4
  rw [hw] at h3
  have h5 := read_here mem bits rest _ h4 hb
  refine ⟨(p + 4 + offsets.length * 8 + bits.length : Nat), ?_⟩
  unfold readVis
  rw [h1]
  simp only [defined, Outcome.ok_bind]
  rw [if_neg (by omega)]
  simp only [Int.toNat_natCast, h3, need, Outcome.ok_bind]
  rw [i32_wrap (by omega) (by omega), int32_ok (by omega) (by omega)]
  simp only [Outcome.ok_bind]
  rw [int32_ok (by omega) (by omega)]
  simp only [Outcome.ok_bind]
  rw [if_neg (by omega)]
  have e : ((L : Int) - (((p + 4 + offsets.length * 8 : Nat) : Int) - p)).toNat = bits.length := by omega
  rw [e, h5]
  rfl

/-! ### Lumps -/

theorem chop_append (s : List Byte) : chop (s ++ [0]) = s := by simp [chop]

/-- A written lump is read back. -/
theorem readLump_here {mem rest : List Byte} {p : Nat} {k : LumpKind} {d : LumpData} (hk : Spec.KindOk k)
    (hd : Spec.Typed k d) (hp : p % 4 = 0) (hmem : mem.length < 2147483648)
    (h : mem.drop p = lumpBytes k p d ++ rest) (q : Int) :
    ∃ q', readLump ⟨mem, q, false⟩ k p (lumpBytes k p d).length = .ok (Spec.loaded d, ⟨mem, q', false⟩) := by
  match k, d, hk, hd, h with
  | .text, .text s, _, _, h =>
    have h1 := read_here mem (s ++ [0]) rest p h (by simp)
    refine ⟨(p + (s ++ [0]).length : Nat), ?_⟩
    rw [show lumpBytes .text p (.text s) = s ++ [0] from rfl]
    simp only [readLump]
    rw [if_neg (by omega), if_neg (by simp; omega)]
    simp only [IStream.seek, Bool.false_eq_true, if_false, Int.toNat_natCast, h1, need, Outcome.ok_bind, chop_append,
      Spec.loaded, Outcome.pure_eq]
  | .raw, .raw b, _, _, h =>
    rw [show lumpBytes .raw p (.raw b) = b from rfl]
    simp only [readLump]
    by_cases hb : b = []
    · subst hb
      exact ⟨q, by simp [Spec.loaded]⟩
    · have h1 := read_here mem b rest p h hb
      have : 0 < b.length := List.length_pos_iff.mpr hb
      refine ⟨(p + b.length : Nat), ?_⟩
      rw [if_neg (by omega), if_neg (by omega)]
      simp only [IStream.seek, Bool.false_eq_true, if_false, Int.toNat_natCast, h1, need, Outcome.ok_bind,
        Spec.loaded, Outcome.pure_eq]
  | .recs types size, .recs rs, hk, hd, h =>
    obtain ⟨hw, hs, hb⟩ := hk
    have hfl := flatMap_length types rs hd
    rw [hw] at hfl
    rw [show lumpBytes (.recs types size) p (.recs rs) = rs.flatMap (encodeFields types) from rfl]
    simp only [readLump, hfl]
    by_cases hr : rs = []
    · subst hr
      exact ⟨q, by simp [Spec.loaded]⟩
    · have : 0 < rs.length := List.length_pos_iff.mpr hr
      have hm : 0 < rs.length * size := Nat.mul_pos this hs
      have h1 := records_here types hb rs mem rest p hd h
      refine ⟨(p + rs.length * width types : Nat), ?_⟩
      rw [if_neg (by omega), if_neg (by push_cast; simp), if_neg (by omega)]
      have e : ((rs.length * size : Nat) : Int) / (size : Int) = rs.length := by
        push_cast
        exact Int.mul_ediv_cancel _ (by omega)
      rw [e]
      simp only [IStream.seek, Bool.false_eq_true, if_false, Int.toNat_natCast, h1, need, Outcome.ok_bind,
        Spec.loaded, Outcome.pure_eq]
  | .vis, .vis offsets bits, _, hd, h =>
    obtain ⟨ho, hb⟩ := hd
    rw [show lumpBytes .vis p (.vis offsets bits) = visBytes offsets bits from rfl]
    simp only [readLump]
    by_cases hne : offsets = []
    · have := hb.mp hne
      subst hne this
      exact ⟨q, by simp [visBytes, Spec.loaded]⟩
    · have hbn : bits ≠ [] := fun e => hne (hb.mpr e)
      obtain ⟨q', hq⟩ := readVis_here hmem ho hne hbn h
      refine ⟨q', ?_⟩
      rw [if_neg]
      · simpa [IStream.seek, Spec.loaded] using hq
      · unfold visBytes
        have : offsets.length ≠ 0 := by simpa using hne
        rw [if_neg this]
        simp only [List.length_append, encode_length]
        omega
  | .tex, .tex ts, _, hd, h =>
    rw [show lumpBytes .tex p (.tex ts) = texBytes p ts from rfl]
    simp only [readLump]
    obtain ⟨q', hq⟩ := readTex_here hp hmem hd h
    refine ⟨q', ?_⟩
    rw [if_neg]
    · simpa [IStream.seek, Spec.loaded] using hq
    · simp only [texBytes, List.length_append, encode_length]
      omega
  | .unused, .unused, _, _, _ => exact ⟨q, rfl⟩

end Verif.BspFile
