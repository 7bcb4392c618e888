import Verif.BspFile.FileMainLemmas
import Mathlib.Tactic.IntervalCases

namespace Verif.BspFile

open Verif Verif.Stream

theorem loadBsp_here (v : Ver) (d : FileBsp) {out : List Byte} {dir : List (Int × Int)} (ht : Spec.FileTyped v d)
    (hn : Spec.NamesOk d.bspx) (inv : Inv (hdrSize v) v.lumps d.lumps v.writeOrder.reverse ⟨out, dir⟩)
    (hhdr : out.take (hdrSize v) = headerBytes v dir) (hhold : ∀ e ∈ dir, i32.Holds e.1 ∧ i32.Holds e.2)
    (hs : (out ++ bspxPart out.length d.bspx).length < 2147483648)
    (hdet : v.base.game = .quake → isHexen2 (out ++ bspxPart out.length d.bspx) dir v.base = .ok v.hexen2) :
    loadBsp (out ++ bspxPart out.length d.bspx) = .ok (v, ⟨d.lumps.map Spec.loaded, d.bspx⟩) := by
  obtain ⟨o1, o2, o3, o4⟩ := order_spec v
  have hent := fun e he => inv.entry (e := e) he
  have hle := inv.hdr_le
  have hlen4 := inv.len4
  have hdl := inv.dirlen
  simp only at hent hle hlen4 hdl
  generalize hfile : out ++ bspxPart out.length d.bspx = file at *
  have hpre : file = headerBytes v dir ++ (out.drop (hdrSize v) ++ bspxPart out.length d.bspx) := by
    rw [← hfile, ← List.append_assoc, ← hhdr, List.take_append_drop]
  obtain ⟨q, hq⟩ := readHeader_here hdl hhold hpre hdet
  obtain ⟨q', hq'⟩ := readLumps_here file hs v.lumps dir d.lumps hdl.symm ht.1.symm (kinds_ok v) (by
    intro i k e x hk he hx
    refine ⟨ht.2 i k x hk hx, ?_⟩
    intro hu
    have hi : i ∈ v.writeOrder := by
      by_contra hc
      have := o4 i (List.getElem?_eq_some_iff.mp hk).1 hc
      rw [hk] at this
      injection this with this
      exact hu this
    obtain ⟨k', x', ofs, rest, h1, h2, h3, h4, h5, h6, h7⟩ := inv.placed i (by simpa using hi)
    rw [hk] at h1
    rw [hx] at h2
    injection h1 with h1
    injection h2 with h2
    subst h1 h2
    simp only at h3 h4 h7
    rw [he] at h3
    injection h3 with h3
    refine ⟨ofs, rest ++ bspxPart out.length d.bspx, h3, h6, ?_⟩
    rw [← hfile, List.drop_append_of_le_length (by omega), h4, List.append_assoc]) q
  obtain ⟨i, hi, e, he, hlast⟩ := inv.last (by simpa using o3)
  simp only at he hlast
  have hx := readBspx_here (file := file) (out := out) (dir := dir) (x := d.bspx) hs hlen4
    (by rw [← hfile, List.drop_left]) (by rw [← hfile, List.length_append])
    (fun e he => by have := hent e he; omega) ⟨e, List.mem_of_getElem? he, hlast⟩ hn.1 hn.2 q'
  unfold loadBsp
  simp only [hq, Outcome.ok_bind, hq', hx, Outcome.pure_eq]

/-! ### Recognising the game -/

theorem encode_four (k : Scalar) (h : k.bytes = 4) (v : Int) : k.encode v = i32.encode v := by
  unfold Scalar.encode
  rw [h]


theorem encodeFields_four : ∀ (ks : List Scalar) (vs : List Int), (∀ k ∈ ks, k.bytes = 4) → FieldsHold ks vs →
    encodeFields ks vs = vs.flatMap fun v => i32.encode v := by
  intro ks
  induction ks with
  | nil =>
    intro vs _ h
    cases vs with
    | nil => rfl
    | cons a b => simp [FieldsHold] at h
  | cons k ks ih =>
    intro vs hk h
    cases vs with
    | nil => simp [FieldsHold] at h
    | cons a b =>
      simp only [encodeFields, List.flatMap_cons]
      rw [encode_four k (hk k (by simp)), ih b (fun k h => hk k (by simp [h])) h.2]

theorem words_at (mem : List Byte) (p : Nat) : ∀ (ws : List Int) (rest : List Byte),
    mem.drop p = (ws.flatMap fun v => i32.encode v) ++ rest → p ≤ mem.length → ∀ (j : Nat) (w : Int), ws[j]? = some w →
    memI32 mem (p + 4 * j) = .ok (i32.wrap w) := by
  intro ws
  induction ws generalizing p with
  | nil => intro rest _ _ j w h; simp at h
  | cons a ws ih =>
    intro rest h hp j w hj
    rw [List.flatMap_cons, List.append_assoc] at h
    have hlen := congrArg List.length h
    simp only [List.length_drop, List.length_append, encode_length] at hlen
    have hb : i32.bytes = 4 := rfl
    cases j with
    | zero =>
      simp only [List.getElem?_cons_zero, Option.some.injEq] at hj
      subst hj
      unfold memI32
      rw [if_pos (by omega)]
      have : ((p : Int) + 4 * ((0 : Nat) : Int)).toNat = p := by omega
      rw [this, h]
      have e4 : (i32.encode a).length = 4 := by rw [encode_length]
      rw [← e4, List.take_left, decode_encode]
    | succ j =>
      have h2 := drop_next h
      rw [encode_length, hb] at h2
      have := ih (p + 4) rest h2 (by omega) j w (by simpa using hj)
      rw [← this]
      congr 1
      push_cast
      ring

/-- The fields of a model, taken as numbers. -/
def ModelAt (mem : List Byte) (p : Int) (r : List Int) : Prop :=
  ∀ j : Nat, 9 ≤ j → j < 20 → memI32 mem (p + 4 * j) = .ok (Spec.fld r j)

theorem checkHeads_true {mem : List Byte} {p : Int} {r : List Int} {clipnodes : Int} (h : ModelAt mem p r) :
    ∀ js : List Nat, (∀ j ∈ js, 1 ≤ j ∧ j ≤ 7) → (∀ j, 1 ≤ j → j ≤ 7 → Spec.fld r (9 + j) < clipnodes) →
    checkHeads mem p clipnodes (js.map fun (j : Nat) => (j : Int)) = .ok true := by
  intro js
  induction js with
  | nil => intro _ _; rfl
  | cons j js ih =>
    intro hj hc
    obtain ⟨h1, h2⟩ := hj j (by simp)
    have hm := h (9 + j) (by omega) (by omega)
    have : p + 36 + 4 * (j : Int) = p + 4 * ((9 + j : Nat) : Int) := by push_cast; ring
    have hlt := hc j h1 h2
    rw [List.map_cons, checkHeads, this, hm]
    simp only [Outcome.ok_bind]
    rw [if_neg (by omega)]
    exact ih (fun j hj' => hj j (by simp [hj'])) hc

theorem checkModel_true {mem : List Byte} {p : Int} {r : List Int} {faces nodes leafs clipnodes : Nat}
    (h : ModelAt mem p r) (hv : Spec.ValidModel faces nodes leafs clipnodes r) (hf : (faces : Int) ≤ 2147483647) :
    checkModel mem p faces nodes leafs clipnodes = .ok true := by
  obtain ⟨⟨v1, v2⟩, v3, v4, v5, v6, v7⟩ := hv
  have m17 := h 17 (by omega) (by omega)
  have m18 := h 18 (by omega) (by omega)
  have m19 := h 19 (by omega) (by omega)
  have m9 := h 9 (by omega) (by omega)
  simp only [Nat.cast_ofNat, Int.reduceMul] at m17 m18 m19 m9
  unfold checkModel
  rw [m17]
  simp only [Outcome.ok_bind]
  rw [if_neg (by omega), m19]
  simp only [Outcome.ok_bind]
  rw [if_neg (by omega), m18]
  simp only [Outcome.ok_bind]
  rw [if_neg (by omega), int32_ok (by omega) (by omega)]
  simp only [Outcome.ok_bind]
  rw [if_neg (by omega), m9]
  simp only [Outcome.ok_bind]
  rw [if_neg (by omega)]
  exact checkHeads_true h [1, 2, 3, 4, 5, 6, 7] (by decide) v7

theorem checkModels_true {mem : List Byte} {faces nodes leafs clipnodes : Nat} (hf : (faces : Int) ≤ 2147483647) :
    ∀ (rs : List (List Int)) (p : Int),
      (∀ (i : Nat) (r : List Int), rs[i]? = some r → ModelAt mem (p + 80 * i) r ∧
        Spec.ValidModel faces nodes leafs clipnodes r) →
      checkModels mem faces nodes leafs clipnodes p rs.length = .ok true := by
  intro rs
  induction rs with
  | nil => intro p _; rfl
  | cons r rs ih =>
    intro p h
    obtain ⟨h1, h2⟩ := h 0 r rfl
    simp only [Nat.cast_zero, mul_zero, add_zero] at h1
    rw [List.length_cons, checkModels, checkModel_true h1 h2 hf]
    simp only [Outcome.ok_bind, if_true]
    refine ih (p + 80) ?_
    intro i r' hi
    have := h (i + 1) r' (by simpa using hi)
    refine ⟨?_, this.2⟩
    have e : p + 80 + 80 * (i : Int) = p + 80 * ((i + 1 : Nat) : Int) := by push_cast; ring
    rw [e]
    exact this.1

theorem checkModels_false {mem : List Byte} {faces nodes leafs clipnodes p w : Int} {n : Nat} (hn : 0 < n)
    (hm : memI32 mem (p + 68) = .ok w) (hw : w < 0 ∨ w > leafs) :
    checkModels mem faces nodes leafs clipnodes p n = .ok false := by
  obtain ⟨n, rfl⟩ := Nat.exists_eq_succ_of_ne_zero (by omega : n ≠ 0)
  rw [checkModels]
  unfold checkModel
  rw [hm]
  simp only [Outcome.ok_bind]
  rw [if_pos hw]
  simp

/-- A lump of records in the file. -/
theorem recs_placed {v : Ver} {d : FileBsp} {out : List Byte} {dir : List (Int × Int)} {i : Nat} {a : Arr}
    (ht : Spec.FileTyped v d) (inv : Inv (hdrSize v) v.lumps d.lumps v.writeOrder.reverse ⟨out, dir⟩)
    (hi : v.lumps[i]? = some (v.arr a)) (rest' : List Byte) :
    ∃ (ofs : Nat) (rest : List Byte), dir[i]? = some ((ofs : Int),
        (((Spec.recsOf d i).length * sizeOf v.family v.hexen2 a : Nat) : Int)) ∧
      (out ++ rest').drop ofs = (Spec.recsOf d i).flatMap (encodeFields (fileTypes v.family v.hexen2 a)) ++ rest ∧
      ofs + (Spec.recsOf d i).length * sizeOf v.family v.hexen2 a ≤ out.length ∧
      (∀ r ∈ Spec.recsOf d i, FieldsHold (fileTypes v.family v.hexen2 a) r) := by
  obtain ⟨o1, o2, o3, o4⟩ := order_spec v
  have him : i ∈ v.writeOrder := by
    by_contra hc
    have := o4 i (List.getElem?_eq_some_iff.mp hi).1 hc
    rw [hi] at this
    simp [Ver.arr] at this
  obtain ⟨k', x, ofs, rest, h1, h2, h3, h4, h5, h6, h7⟩ := inv.placed i (by simpa using him)
  rw [hi] at h1
  injection h1 with h1
  subst h1
  have hty := ht.2 i _ _ hi h2
  have hko := kinds_ok v _ (List.mem_of_getElem? hi)
  unfold Ver.arr at hty hko
  cases x with
  | recs rs =>
    have er : Spec.recsOf d i = rs := by unfold Spec.recsOf; rw [h2]
    rw [er]
    simp only [Spec.Typed] at hty
    have hl : (lumpBytes (v.arr a) ofs (.recs rs)).length = rs.length * sizeOf v.family v.hexen2 a := by
      rw [← hko.1]
      exact flatMap_length _ rs hty
    rw [hl] at h3 h7
    refine ⟨ofs, rest ++ rest', h3, ?_, h7, hty⟩
    simp only at h4 h7
    rw [List.drop_append_of_le_length (by omega), h4, List.append_assoc]
    rfl
  | _ => simp [Spec.Typed] at hty

theorem types_four (v : Ver) (hg : v.base.game = .quake) : ∀ k ∈ fileTypes v.family v.hexen2 .models, k.bytes = 4 := by
  cases v <;> first | decide | simp [Ver.base, Ver.game] at hg

theorem types_count (v : Ver) (hg : v.base.game = .quake) :
    (fileTypes v.family v.hexen2 .models).length = if v.hexen2 then 20 else 16 := by
  cases v <;> first | decide | simp [Ver.base, Ver.game] at hg

theorem types_i32 (v : Ver) (hg : v.base.game = .quake) (hh : v.hexen2 = true) : ∀ j, 9 ≤ j → j < 20 →
    (fileTypes v.family v.hexen2 .models)[j]? = some i32 := by
  have e : fileTypes v.family v.hexen2 .models = List.replicate 9 f32 ++ List.replicate 8 i32 ++ [i32, i32, i32] := by
    cases v <;> first | rfl | simp [Ver.base, Ver.game, Ver.hexen2] at hg hh
  rw [e]
  intro j h1 h2
  interval_cases j <;> rfl

theorem fieldsHold_length : ∀ (ks : List Scalar) (vs : List Int), FieldsHold ks vs → vs.length = ks.length := by
  intro ks
  induction ks with
  | nil =>
    intro vs h
    cases vs with
    | nil => rfl
    | cons a b => simp [FieldsHold] at h
  | cons k ks ih =>
    intro vs h
    cases vs with
    | nil => simp [FieldsHold] at h
    | cons a b => simp [ih b h.2]

theorem fieldsHold_get : ∀ (ks : List Scalar) (vs : List Int), FieldsHold ks vs → ∀ (i : Nat) (k : Scalar) (v : Int),
    ks[i]? = some k → vs[i]? = some v → k.Holds v := by
  intro ks
  induction ks with
  | nil => intro vs _ i k v h; simp at h
  | cons k ks ih =>
    intro vs h i k' v hk hv
    cases vs with
    | nil => simp at hv
    | cons a b =>
      cases i with
      | zero =>
        simp only [List.getElem?_cons_zero, Option.some.injEq] at hk hv
        subst hk hv
        exact h.1
      | succ i => exact ih b h.2 i k' v (by simpa using hk) (by simpa using hv)

/-- The words of records of the same length. -/
theorem flatten_get : ∀ (rs : List (List Int)) (n i j : Nat) (r : List Int) (w : Int), (∀ r ∈ rs, r.length = n) →
    rs[i]? = some r → r[j]? = some w → rs.flatten[n * i + j]? = some w := by
  intro rs
  induction rs with
  | nil => intro n i j r w _ h; simp at h
  | cons a rs ih =>
    intro n i j r w hn hi hj
    have ha := hn a (by simp)
    cases i with
    | zero =>
      simp only [List.getElem?_cons_zero, Option.some.injEq] at hi
      subst hi
      have := (List.getElem?_eq_some_iff.mp hj).1
      rw [List.flatten_cons, List.getElem?_append_left (by omega)]
      simpa using hj
    | succ i =>
      rw [List.flatten_cons, List.getElem?_append_right (by rw [ha, Nat.mul_succ]; omega)]
      have e : n * (i + 1) + j - a.length = n * i + j := by rw [ha, Nat.mul_succ]; omega
      rw [e]
      exact ih n i j r w (fun r hr => hn r (by simp [hr])) (by simpa using hi) hj

theorem flatMap_four (ks : List Scalar) (hk : ∀ k ∈ ks, k.bytes = 4) (rs : List (List Int)) (h : ∀ r ∈ rs, FieldsHold ks r) :
    rs.flatMap (encodeFields ks) = rs.flatten.flatMap fun v => i32.encode v := by
  induction rs with
  | nil => rfl
  | cons r rs ih =>
    rw [List.flatMap_cons, List.flatten_cons, List.flatMap_append, encodeFields_four ks r hk (h r (by simp)),
      ih (fun r hr => h r (by simp [hr]))]

theorem lumps_quake (v : Ver) (hg : v.base.game = .quake) : v.lumps[14]? = some (v.arr .models) ∧
    v.lumps[7]? = some (v.arr .faces) ∧ v.lumps[5]? = some (v.arr .nodes) ∧ v.lumps[10]? = some (v.arr .leafs) ∧
    v.lumps[9]? = some (v.arr .clipnodes) := by
  cases v <;> first | (refine ⟨rfl, rfl, rfl, rfl, rfl⟩) | simp [Ver.base, Ver.game] at hg

theorem sizes_base (v : Ver) : sizeOf v.base.family v.base.hexen2 .faces = sizeOf v.family v.hexen2 .faces ∧
    sizeOf v.base.family v.base.hexen2 .nodes = sizeOf v.family v.hexen2 .nodes ∧
    sizeOf v.base.family v.base.hexen2 .leafs = sizeOf v.family v.hexen2 .leafs ∧
    sizeOf v.base.family v.base.hexen2 .clipnodes = sizeOf v.family v.hexen2 .clipnodes ∧
    0 < sizeOf v.family v.hexen2 .faces ∧ 0 < sizeOf v.family v.hexen2 .nodes ∧ 0 < sizeOf v.family v.hexen2 .leafs ∧
    0 < sizeOf v.family v.hexen2 .clipnodes := by cases v <;> decide

theorem size_models (v : Ver) (hg : v.base.game = .quake) :
    sizeOf v.family v.hexen2 .models = if v.hexen2 then 80 else 64 := by
  cases v <;> first | rfl | simp [Ver.base, Ver.game] at hg

theorem tdiv_count (n s : Nat) (hs : 0 < s) : ((n * s : Nat) : Int).tdiv (s : Int) = n := by
  rw [Int.natCast_mul, Int.mul_tdiv_cancel]
  omega

theorem detect_here (v : Ver) (d : FileBsp) {out : List Byte} {dir : List (Int × Int)} (ht : Spec.FileTyped v d)
    (inv : Inv (hdrSize v) v.lumps d.lumps v.writeOrder.reverse ⟨out, dir⟩) (hs : out.length < 2147483648)
    (hr : Spec.Recognisable v d) (hg : v.base.game = .quake) (rest' : List Byte) :
    isHexen2 (out ++ rest') dir v.base = .ok v.hexen2 := by
  obtain ⟨l14, l7, l5, l10, l9⟩ := lumps_quake v hg
  obtain ⟨om, rm, dm, fm, bm, tm⟩ := recs_placed ht inv l14 rest'
  obtain ⟨of, _, df, _, bf, _⟩ := recs_placed ht inv l7 rest'
  obtain ⟨on, _, dn, _, bn, _⟩ := recs_placed ht inv l5 rest'
  obtain ⟨ol, _, dl, _, bl, _⟩ := recs_placed ht inv l10 rest'
  obtain ⟨oc, _, dc, _, bc, _⟩ := recs_placed ht inv l9 rest'
  obtain ⟨s1, s2, s3, s4, p1, p2, p3, p4⟩ := sizes_base v
  have hsm := size_models v hg
  rw [flatMap_four _ (types_four v hg) _ tm] at fm
  have hwords := words_at _ om _ _ fm (by rw [List.length_append]; omega)
  have hlen : ∀ r ∈ Spec.recsOf d 14, r.length = if v.hexen2 then 20 else 16 := by
    intro r hr
    rw [fieldsHold_length _ _ (tm r hr), types_count v hg]
  have hnf : (((Spec.recsOf d 7).length : Nat) : Int) ≤ 2147483647 := by
    have : (Spec.recsOf d 7).length ≤ (Spec.recsOf d 7).length * sizeOf v.family v.hexen2 .faces :=
      Nat.le_mul_of_pos_right _ p1
    omega
  unfold isHexen2
  simp only [Outcome.readAt, dm, df, dn, dl, dc, Outcome.ok_bind]
  rw [s1, s2, s3, s4, tdiv_count _ _ p1, tdiv_count _ _ p2, tdiv_count _ _ p3, tdiv_count _ _ p4]
  have wu : u64.wrap (((Spec.recsOf d 14).length * sizeOf v.family v.hexen2 .models : Nat) : Int) =
      (((Spec.recsOf d 14).length * sizeOf v.family v.hexen2 .models : Nat) : Int) := u64_wrap (by omega) (by omega)
  rw [wu]
  rw [hsm] at bm ⊢
  by_cases hh : v.hexen2 = true
  · simp only [hh, if_true] at bm ⊢ hlen
    rw [if_neg (by omega)]
    have hgame : v.game = .hexen2 := by simpa [Ver.hexen2] using hh
    simp only [Spec.Recognisable, hgame] at hr
    by_cases h4 : (Spec.recsOf d 14).length % 4 = 0
    · rw [if_neg (by omega)]
      have hvalid := hr.resolve_left (by omega)
      have hcount : (i32.wrap ((((Spec.recsOf d 14).length * 80 : Nat) : Int) / 80)).toNat = (Spec.recsOf d 14).length := by
        rw [i32_wrap (by omega) (by omega)]
        omega
      rw [hcount]
      refine checkModels_true hnf _ _ ?_
      intro i r hi
      have hmem := List.mem_of_getElem? hi
      refine ⟨?_, hvalid r hmem⟩
      intro j hj9 hj
      have hrl := hlen r hmem
      have hw := hwords (20 * i + j) r[j] (flatten_get _ 20 i j r _ hlen hi (List.getElem?_eq_getElem (by omega)))
      have e : (om : Int) + 80 * (i : Int) + 4 * (j : Int) = (om : Int) + 4 * ((20 * i + j : Nat) : Int) := by
        push_cast; ring
      rw [e, hw]
      have hk : (fileTypes v.family v.hexen2 .models)[j]? = some i32 := types_i32 v hg hh j hj9 hj
      have hold := fieldsHold_get _ _ (tm r hmem) j i32 r[j] hk (List.getElem?_eq_getElem (by omega))
      rw [wrap_of_holds i32 (by decide) _ hold]
      unfold Spec.fld
      rw [List.getElem?_eq_getElem (by omega)]
      rfl
    · rw [if_pos (by omega)]
      rfl
  · have hh' : v.hexen2 = false := by simpa using hh
    have hgame : v.game = .quake := by
      cases v <;> simp [Ver.hexen2, Ver.game, Ver.base] at hh hg ⊢
    simp only [hh', Bool.false_eq_true, if_false] at bm ⊢ hlen
    simp only [Spec.Recognisable, hgame] at hr
    by_cases h5 : (Spec.recsOf d 14).length % 5 = 0
    · obtain ⟨r, hr1, hr2⟩ := hr.resolve_left (by omega)
      rw [if_neg (by omega), if_neg (by omega)]
      have hlt := (List.getElem?_eq_some_iff.mp hr1).1
      have hmem := List.mem_of_getElem? hr1
      have hrl := hlen r hmem
      have hw := hwords (16 * 1 + 1) (Spec.fld r 1) (flatten_get _ 16 1 1 r _ hlen hr1 (by
        unfold Spec.fld
        rw [List.getElem?_eq_getElem (by omega)]
        rfl))
      refine checkModels_false ?_ hw (by omega)
      rw [i32_wrap (by omega) (by omega)]
      omega
    · rw [if_pos (by omega)]
      rfl

theorem scalar_u32 {s s' : IStream} {v : Int} (h : s.scalar u32 = .ok (some v, s')) : 0 ≤ v := by
  unfold IStream.scalar at h
  rw [Outcome.bind_eq_ok] at h
  obtain ⟨r, _, h⟩ := h
  simp only [Outcome.pure_eq, Outcome.ok.injEq, Prod.mk.injEq, Option.map_eq_some_iff] at h
  obtain ⟨⟨bs, _, rfl⟩, _⟩ := h
  exact (wrap_holds u32 (by decide) _).1

theorem fields_two {s : IStream} {r : Option (List Int) × IStream} {a b : Int} (h : s.fields [u32, u32] = .ok r)
    (hr : r.1 = some [a, b]) : 0 ≤ a ∧ 0 ≤ b := by
  simp only [IStream.fields] at h
  rw [Outcome.bind_eq_ok] at h
  obtain ⟨⟨v1, s1⟩, h1, h⟩ := h
  rw [Outcome.bind_eq_ok] at h
  obtain ⟨q, h2, h⟩ := h
  rw [Outcome.bind_eq_ok] at h2
  obtain ⟨⟨v2, s2⟩, h2, h3⟩ := h2
  simp only [Outcome.ok_bind, Outcome.pure_eq, Outcome.ok.injEq] at h h3
  subst h h3
  cases v1 with
  | none => simp at hr
  | some v1 =>
    cases v2 with
    | none => simp at hr
    | some v2 =>
      simp only [Option.some.injEq, List.cons.injEq, and_true] at hr
      obtain ⟨rfl, rfl⟩ := hr
      exact ⟨scalar_u32 h1, scalar_u32 h2⟩

end Verif.BspFile
