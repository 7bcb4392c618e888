import Verif.BspFile.Bspx
import Verif.BspFile.LumpLemmas

/-!
Properties of BSPX lumps and .lit files: C32, C33, C75, C76.
-/

namespace Verif.BspFile

open Verif Verif.Stream

namespace Spec

/-- A brush that the format can hold: fields fit, and fewer than 65536 faces. -/
def XBrushOk (b : XBrush) : Prop :=
  FieldsHold boundsTypes b.bounds ∧ i16.Holds b.contents ∧ b.faces.length < 65536 ∧ ∀ f ∈ b.faces, FieldsHold xplaneTypes f

/-- The number of faces of a model. -/
def faceCount (bs : List XBrush) : Nat := (bs.map fun b => b.faces.length).sum

/-- A model that the format can hold. -/
def XModelOk (m : XModel) : Prop :=
  i32.Holds m.ver ∧ i32.Holds m.modelnum ∧ m.brushes.length < 2147483648 ∧ faceCount m.brushes < 2147483648 ∧
    ∀ b ∈ m.brushes, XBrushOk b

/-- The model with the number of faces that is written. -/
def counted (m : XModel) : XModel := { m with numfaces := faceCount m.brushes }

end Spec

/-! ### C33 -/

theorem u16_holds {v : Int} (h0 : 0 ≤ v) (h : v < 65536) : u16.Holds v := by
  constructor
  · exact h0
  · have : u16.hi = 65535 := by decide
    omega

theorem u16_wrap {v : Int} (h0 : 0 ≤ v) (h : v < 65536) : u16.wrap v = v :=
  wrap_of_holds u16 (by decide) v (u16_holds h0 h)

theorem readXBrush_here {b : XBrush} (hb : Spec.XBrushOk b) {mem rest : List Byte} {p : Nat}
    (h : mem.drop p = xbrushBytes b ++ rest) :
    readXBrush ⟨mem, p, false⟩ = .ok (some b, ⟨mem, (p + (xbrushBytes b).length : Nat), false⟩) := by
  obtain ⟨h1, h2, h3, h4⟩ := hb
  have hlen : (xbrushBytes b).length = width boundsTypes + i16.bytes + u16.bytes + b.faces.length * width xplaneTypes := by
    unfold xbrushBytes
    simp only [List.length_append, encode_length, encodeFields_length _ _ h1, flatMap_length _ _ h4]
  unfold xbrushBytes at h
  simp only [List.append_assoc] at h
  rw [u16_wrap (by omega) (by omega)] at h
  have r1 := fields_here boundsTypes (by decide) _ mem _ p h1 h
  have d1 := drop_next h
  rw [encodeFields_length _ _ h1] at d1
  have r2 := scalar_here mem _ _ i16 (by decide) _ h2 d1
  have d2 := drop_next d1
  rw [encode_length] at d2
  have r3 := scalar_here mem _ _ u16 (by decide) _ (u16_holds (by omega) (by omega)) d2
  have d3 := drop_next d2
  rw [encode_length] at d3
  have r4 := records_here xplaneTypes (by decide) _ mem rest _ h4 d3
  unfold readXBrush
  simp only [r1, Outcome.ok_bind, r2, r3, Option.getD_some, Int.toNat_natCast, r4, Outcome.pure_eq, hlen]
  simp only [Nat.add_assoc]

theorem readXBrushes_here (mem rest : List Byte) : ∀ (bs : List XBrush) (p : Nat), (∀ b ∈ bs, Spec.XBrushOk b) →
    mem.drop p = bs.flatMap xbrushBytes ++ rest → readXBrushes ⟨mem, p, false⟩ bs.length =
      .ok (some bs, ⟨mem, (p + (bs.flatMap xbrushBytes).length : Nat), false⟩) := by
  intro bs
  induction bs with
  | nil => intro p _ _; simp [readXBrushes]
  | cons b bs ih =>
    intro p hb h
    rw [List.flatMap_cons, List.append_assoc] at h
    have r1 := readXBrush_here (hb b (by simp)) h
    have r2 := ih _ (fun b h => hb b (by simp [h])) (drop_next h)
    simp only [List.length_cons, readXBrushes, r1, Outcome.ok_bind, r2, Outcome.pure_eq, List.flatMap_cons,
      List.length_append, Nat.add_assoc]

theorem countFaces_here : ∀ (bs : List XBrush) (n : Nat), n + Spec.faceCount bs < 2147483648 →
    countFaces n bs = .ok ((n + Spec.faceCount bs : Nat) : Int) := by
  intro bs
  induction bs with
  | nil => intro n _; rfl
  | cons b bs ih =>
    intro n h
    have e : Spec.faceCount (b :: bs) = b.faces.length + Spec.faceCount bs := by simp [Spec.faceCount]
    rw [e] at h ⊢
    rw [countFaces, i32_wrap (by omega) (by omega), int32_ok (by omega) (by omega)]
    simp only [Outcome.ok_bind]
    have := ih (n + b.faces.length) (by omega)
    push_cast at this ⊢
    rw [this]
    refine congrArg Outcome.ok ?_
    omega

theorem xmodel_here {m : XModel} (hm : Spec.XModelOk m) : ∃ bs, xmodelBytes m = .ok bs ∧ 16 ≤ bs.length ∧
    ∀ (mem rest : List Byte) (p : Nat), mem.drop p = bs ++ rest →
      readXModel ⟨mem, p, false⟩ = .ok (some (Spec.counted m), ⟨mem, (p + bs.length : Nat), false⟩) := by
  obtain ⟨h1, h2, h3, h4, h5⟩ := hm
  have hc := countFaces_here m.brushes 0 (by omega)
  simp only [Nat.cast_zero, Nat.zero_add] at hc
  refine ⟨i32.encode m.ver ++ i32.encode m.modelnum ++ i32.encode (i32.wrap m.brushes.length) ++
    i32.encode (Spec.faceCount m.brushes) ++ m.brushes.flatMap xbrushBytes, ?_, ?_, ?_⟩
  · unfold xmodelBytes
    rw [hc]
    rfl
  · simp only [List.length_append, encode_length]
    have : i32.bytes = 4 := rfl
    omega
  · intro mem rest p h
    rw [i32_wrap (by omega) (by omega)] at h ⊢
    simp only [List.append_assoc] at h
    have r1 := scalar_here mem _ _ i32 (by decide) _ h1 h
    have d1 := drop_next h
    rw [encode_length] at d1
    have r2 := scalar_here mem _ _ i32 (by decide) _ h2 d1
    have d2 := drop_next d1
    rw [encode_length] at d2
    have r3 := scalar_here mem _ _ i32 (by decide) _ (i32_holds (by omega) (by omega)) d2
    have d3 := drop_next d2
    rw [encode_length] at d3
    have r4 := scalar_here mem _ _ i32 (by decide) _ (i32_holds (by omega) (by omega)) d3
    have d4 := drop_next d3
    rw [encode_length] at d4
    have r5 := readXBrushes_here mem rest m.brushes _ h5 d4
    unfold readXModel
    simp only [r1, Outcome.ok_bind, r2, r3, defined, r4]
    rw [if_neg (by omega)]
    simp only [Int.toNat_natCast, r5, Outcome.ok_bind, Outcome.pure_eq]
    simp only [List.length_append, encode_length, Nat.add_assoc]
    rfl

theorem xmodels_here : ∀ (ms : List XModel), (∀ m ∈ ms, Spec.XModelOk m) → ∃ bs, xmodelsBytes ms = .ok bs ∧
    ms.length ≤ bs.length ∧ ∀ (mem : List Byte) (p fuel : Nat), mem.drop p = bs → p ≤ mem.length → ms.length < fuel →
      readXModels fuel ⟨mem, p, false⟩ = .ok (ms.map Spec.counted) := by
  intro ms
  induction ms with
  | nil =>
    intro _
    refine ⟨[], rfl, by simp, ?_⟩
    intro mem p fuel h hp hf
    obtain ⟨fuel, rfl⟩ := Nat.exists_eq_succ_of_ne_zero (by omega : fuel ≠ 0)
    have hp' : p = mem.length := by
      have := congrArg List.length h
      simp only [List.length_drop, List.length_nil] at this
      omega
    subst hp'
    simp [readXModels, readXModel, IStream.scalar, IStream.read]
  | cons m ms ih =>
    intro hm
    obtain ⟨a, ha, ha16, hra⟩ := xmodel_here (hm m (by simp))
    obtain ⟨b, hb, hbl, hrb⟩ := ih (fun m h => hm m (by simp [h]))
    refine ⟨a ++ b, ?_, ?_, ?_⟩
    · simp only [xmodelsBytes, ha, Outcome.ok_bind, hb, Outcome.pure_eq]
    · rw [List.length_append, List.length_cons]; omega
    · intro mem p fuel h hp hf
      obtain ⟨fuel, rfl⟩ := Nat.exists_eq_succ_of_ne_zero (by omega : fuel ≠ 0)
      have h1 := hra mem b p h
      have hl := congrArg List.length h
      simp only [List.length_drop, List.length_append] at hl
      have h2 := hrb mem (p + a.length) fuel (drop_next h) (by omega) (by rw [List.length_cons] at hf; omega)
      simp only [readXModels, h1, Outcome.ok_bind, Bool.false_eq_true, if_false, h2, Outcome.pure_eq, List.map_cons]

/-- **C33**, partial: a BRUSHLIST lump is read back with the same models, brushes and planes; the number of faces is the
one that was counted. Missing: brushes with 65536 or more faces; see `brush_faces_lost`. -/
theorem brushlist_roundtrip_partial (ms : List XModel) (hm : ∀ m ∈ ms, Spec.XModelOk m) :
    ∃ lump, xmodelsBytes ms = .ok lump ∧ loadBrushList lump = .ok (ms.map Spec.counted) := by
  obtain ⟨bs, h1, h2, h3⟩ := xmodels_here ms hm
  refine ⟨bs, h1, ?_⟩
  unfold loadBrushList
  exact h3 bs 0 (bs.length + 1) (by simp) (by omega) (by omega)

/-- A brush with 65536 faces is written with the number 0, so it is read back without faces. -/
theorem brush_faces_lost : ∃ b c : XBrush, ∃ s, b.faces.length = 65536 ∧ c.faces = [] ∧
    readXBrush (IStream.open (xbrushBytes b)) = .ok (some c, s) := by
  refine ⟨⟨[0, 0, 0, 0, 0, 0], -2, List.replicate 65536 [0, 0, 0, 0]⟩, ⟨[0, 0, 0, 0, 0, 0], -2, []⟩, ?_⟩
  have hl : (List.replicate 65536 [(0 : Int), 0, 0, 0]).length = 65536 := List.length_replicate
  generalize hfs : List.replicate 65536 [(0 : Int), 0, 0, 0] = fs at hl
  have hb : xbrushBytes ⟨[0, 0, 0, 0, 0, 0], -2, fs⟩ = xbrushBytes ⟨[0, 0, 0, 0, 0, 0], -2, []⟩ ++
      fs.flatMap (encodeFields xplaneTypes) := by
    unfold xbrushBytes
    simp only [hl, List.length_nil, List.flatMap_nil, List.append_nil]
    rfl
  have := readXBrush_here (b := ⟨[0, 0, 0, 0, 0, 0], -2, []⟩) (p := 0)
    (mem := xbrushBytes ⟨[0, 0, 0, 0, 0, 0], -2, fs⟩) (rest := fs.flatMap (encodeFields xplaneTypes))
    ⟨by decide, by decide, by decide, by simp⟩ (by rw [List.drop_zero]; exact hb)
  exact ⟨_, hl, rfl, this⟩

example : ∀ m ∈ [(⟨1, 0, [⟨[0, 0, 0, 1, 1, 1], -2, [[1, 2, 3, 4]]⟩, ⟨[0, 0, 0, 1, 1, 1], -3, []⟩], 0⟩ : XModel), ⟨1, 7, [], 0⟩],
    Spec.XModelOk m := by
  intro m hm
  simp only [List.mem_cons, List.not_mem_nil, or_false] at hm
  rcases hm with rfl | rfl
  · refine ⟨by decide, by decide, by decide, by decide, ?_⟩
    intro b hb
    simp only [List.mem_cons, List.not_mem_nil, or_false] at hb
    rcases hb with rfl | rfl
    · refine ⟨by decide, by decide, by decide, by decide⟩
    · refine ⟨by decide, by decide, by decide, by decide⟩
  · refine ⟨by decide, by decide, by decide, by decide, by simp⟩

/-! ### C75 -/

theorem readPerFace_here (mem rest : List Byte) : ∀ (fs : List (List (List Int))) (p : Nat),
    (∀ vs ∈ fs, ∀ v ∈ vs, FieldsHold [u32, u32, u32] v) →
    mem.drop p = (fs.flatMap fun vs => vs.flatMap (encodeFields [u32, u32, u32])) ++ rest →
    ∃ q, readPerFace ⟨mem, p, false⟩ (fs.map fun vs => (vs.length : Int)) = .ok (fs, ⟨mem, q, false⟩) := by
  intro fs
  induction fs with
  | nil => intro p _ _; exact ⟨p, rfl⟩
  | cons vs fs ih =>
    intro p hv h
    rw [List.flatMap_cons, List.append_assoc] at h
    have r1 := records_here [u32, u32, u32] (by decide) vs mem _ p (hv vs (by simp)) h
    have d1 := drop_next h
    rw [flatMap_length _ _ (hv vs (by simp))] at d1
    obtain ⟨q, hq⟩ := ih _ (fun vs h => hv vs (by simp [h])) d1
    refine ⟨q, ?_⟩
    simp only [List.map_cons, readPerFace, Int.toNat_natCast, r1, defined, Outcome.ok_bind, hq, Outcome.pure_eq]

/-- **C75**: a FACENORMALS lump with as many vertices for each face as the face has edges is read back as it was
written. -/
theorem facenormals_roundtrip (x : FaceNormals) (edges : List Int) (hn : ∀ n ∈ x.normals, FieldsHold [f32, f32, f32] n)
    (hv : ∀ vs ∈ x.perFace, ∀ v ∈ vs, FieldsHold [u32, u32, u32] v) (he : edges = x.perFace.map fun vs => (vs.length : Int))
    (hl : x.normals.length < 4294967296) : loadFaceNormals (faceNormalsBytes x) edges = .ok x := by
  subst he
  have h : (faceNormalsBytes x).drop 0 = u32.encode x.normals.length ++ (x.normals.flatMap (encodeFields [f32, f32, f32]) ++
      ((x.perFace.flatMap fun vs => vs.flatMap (encodeFields [u32, u32, u32])) ++ [])) := by
    unfold faceNormalsBytes
    rw [u32_wrap (by omega) (by omega)]
    simp
  have r1 := scalar_here _ _ _ u32 (by decide) _ (u32_holds (by omega) (by omega)) h
  have d1 := drop_next h
  rw [encode_length] at d1
  have r2 := records_here [f32, f32, f32] (by decide) _ _ _ _ hn d1
  have d2 := drop_next d1
  rw [flatMap_length _ _ hn] at d2
  obtain ⟨q, r3⟩ := readPerFace_here _ _ _ _ hv d2
  unfold loadFaceNormals
  have e : IStream.open (faceNormalsBytes x) = ⟨faceNormalsBytes x, (0 : Nat), false⟩ := rfl
  simp only [e, r1, defined, Outcome.ok_bind, Int.toNat_natCast, r2, r3, Outcome.pure_eq]

example : (∀ n ∈ [[(1 : Int), 2, 3]], FieldsHold [f32, f32, f32] n) ∧
    loadFaceNormals (faceNormalsBytes ⟨[[1, 2, 3]], [[[0, 0, 0], [0, 0, 0]], [], [[0, 0, 0]]]⟩) [2, 0, 1] =
      .ok ⟨[[1, 2, 3]], [[[0, 0, 0], [0, 0, 0]], [], [[0, 0, 0]]]⟩ := by
  constructor
  · decide
  · decide +kernel

/-- **C75**: the record of each face is read back from a DECOUPLED_LM lump. -/
theorem decoupled_roundtrip (rs : List (List Int)) (hr : ∀ r ∈ rs, FieldsHold decoupledTypes r) (i : Nat) (r : List Int)
    (hi : rs[i]? = some r) : loadDecoupled (decoupledBytes rs) i = .ok r := by
  have hsplit : ∃ rest, (decoupledBytes rs).drop (i * 40) = encodeFields decoupledTypes r ++ rest := by
    have hlt := (List.getElem?_eq_some_iff.mp hi).1
    have e1 : rs = rs.take i ++ r :: rs.drop (i + 1) := by
      conv_lhs => rw [← List.take_append_drop i rs]
      rw [List.drop_eq_getElem_cons hlt, (List.getElem?_eq_some_iff.mp hi).2]
    have hlen : ((rs.take i).flatMap (encodeFields decoupledTypes)).length = i * 40 := by
      rw [flatMap_length _ _ (fun r h => hr r (List.mem_of_mem_take h)), List.length_take, Nat.min_eq_left (by omega)]
      rfl
    refine ⟨(rs.drop (i + 1)).flatMap (encodeFields decoupledTypes), ?_⟩
    unfold decoupledBytes
    conv_lhs => rw [e1]
    rw [List.flatMap_append, List.flatMap_cons, ← hlen, List.drop_left]
  obtain ⟨rest, hd⟩ := hsplit
  have := fields_here decoupledTypes (by decide) r _ rest _ (hr r (List.mem_of_getElem? hi)) hd
  unfold loadDecoupled
  simp only [IStream.open, IStream.seek, Bool.false_eq_true, if_false, this, defined, Outcome.ok_bind, Outcome.pure_eq]

example : ∀ r ∈ [[(16 : Int), 8, -1, 0, 0, 0, 0, 0, 0, 0, 0]], FieldsHold decoupledTypes r := by decide

/-! ### C32 -/

theorem litLoop_eq (junk : Byte) (l : List Byte) : litLoop junk l = l ++ [junk] := by
  induction l with
  | nil => rfl
  | cons b l ih => simp [litLoop, ih]

/-- **C32**, partial: a .lit file of version 1 is loaded as its payload followed by one more byte. Missing: the additional
byte is not in the file; see `lit_not_exact`. -/
theorem lit_payload_partial (junk : Byte) (data : List Byte) :
    loadLit junk (litId ++ i32.encode 1 ++ data) = .ok (data ++ [junk]) := by
  have e : i32.encode 1 = [1, 0, 0, 0] := by decide
  rw [e]
  unfold loadLit
  have hd : ([1, 0, 0, 0] : List Byte) = i32.encode 1 := e.symm
  rw [if_neg (by simp [litId]), if_neg (by simp [litId]), if_neg (by simp [litId])]
  rw [if_neg (by
    simp only [litId, List.cons_append, List.nil_append, List.drop_succ_cons, List.drop_zero, List.take_succ_cons,
      List.take_zero, ne_eq, not_not]
    rw [hd]
    decide)]
  simp [litId, litLoop_eq]

/-- Whatever the payload, what is loaded is not the payload. -/
theorem lit_not_exact (junk : Byte) (data : List Byte) : loadLit junk (litId ++ i32.encode 1 ++ data) ≠ .ok data := by
  rw [lit_payload_partial]
  intro h
  injection h with h
  have := congrArg List.length h
  simp at this

/-- **C32**: a file that does not start with the identification and version 1 is refused. -/
theorem lit_refused (junk : Byte) (file : List Byte) (h8 : 8 ≤ file.length) (out : List Byte)
    (h : loadLit junk file = .ok out) : ∃ data, file = litId ++ (file.drop 4).take 4 ++ data ∧
      i32.decode ((file.drop 4).take 4) = 1 ∧ out = data ++ [junk] := by
  unfold loadLit at h
  rw [if_neg (by omega)] at h
  split at h
  · simp at h
  · rename_i hid
    rw [if_neg (by omega)] at h
    split at h
    · simp at h
    · rename_i hv
      simp only [ne_eq, not_not] at hid hv
      injection h with h
      refine ⟨file.drop 8, ?_, hv, ?_⟩
      · rw [← hid, List.append_assoc]
        have : (file.drop 4).take 4 ++ file.drop 8 = file.drop 4 := by
          rw [show file.drop 8 = (file.drop 4).drop 4 by rw [List.drop_drop], List.take_append_drop]
        rw [this, List.take_append_drop]
      · rw [← h, litLoop_eq]

/-- **C76**: a .lit file that was written is loaded with the samples that were written, and one more byte. -/
theorem lit_write_load (junk : Byte) (lit : List Byte) (samples : Nat) (h : lit.length = samples * 3) :
    ∃ file, writeLit lit samples = .ok file ∧ loadLit junk file = .ok (lit ++ [junk]) := by
  refine ⟨_, ?_, lit_payload_partial junk lit⟩
  unfold writeLit
  rw [if_neg (by omega), ← h, List.take_length]

example : loadLit 0 (litId ++ i32.encode 1 ++ [5, 6]) = .ok [5, 6, 0] := by decide

end Verif.BspFile
