import Verif.BspFile.LumpLemmas

namespace Verif.BspFile

open Verif Verif.Stream

instance (k : LumpKind) : Decidable (Spec.KindOk k) := by
  cases k <;> unfold Spec.KindOk <;> infer_instance

theorem kinds_ok (v : Ver) : ∀ k ∈ v.lumps, Spec.KindOk k := by
  cases v <;> decide +kernel

/-! ### Sizes -/

theorem texBody_length_congr : ∀ (ts : List Tex) (p q : Nat), p % 4 = q % 4 →
    (texBody p ts).length = (texBody q ts).length := by
  intro ts
  induction ts with
  | nil => intro p q _; rfl
  | cons t ts ih =>
    intro p q h
    cases t with
    | none => simpa [texBody] using ih p q h
    | some d =>
      have hp := padTo4_congr h
      have := ih (p + padTo4 p + d.length) (q + padTo4 q + d.length) (by omega)
      rw [hp] at this
      simp only [texBody, List.length_append, List.length_replicate, hp, this]

theorem lumpBytes_length {p : Nat} (hp : p % 4 = 0) (k : LumpKind) (d : LumpData) :
    (lumpBytes k p d).length = (lumpBytes k 0 d).length := by
  match k, d with
  | .tex, .tex ts =>
    show (texBytes p ts).length = (texBytes 0 ts).length
    simp only [texBytes, List.length_append, encode_length, texHeader_length]
    rw [texBody_length_congr ts (p + (4 + 4 * ts.length)) (0 + (4 + 4 * ts.length)) (by omega)]
  | .text, .text s => rfl
  | .raw, .raw s => rfl
  | .recs _ _, .recs s => rfl
  | .vis, .vis _ _ => rfl
  | .unused, _ => rfl
  | .text, .raw _ | .text, .recs _ | .text, .vis _ _ | .text, .tex _ | .text, .unused => rfl
  | .raw, .text _ | .raw, .recs _ | .raw, .vis _ _ | .raw, .tex _ | .raw, .unused => rfl
  | .recs _ _, .text _ | .recs _ _, .raw _ | .recs _ _, .vis _ _ | .recs _ _, .tex _ | .recs _ _, .unused => rfl
  | .vis, .text _ | .vis, .raw _ | .vis, .recs _ | .vis, .tex _ | .vis, .unused => rfl
  | .tex, .text _ | .tex, .raw _ | .tex, .recs _ | .tex, .vis _ _ | .tex, .unused => rfl

theorem expected_length {k : LumpKind} {d : LumpData} (hk : Spec.KindOk k) (hd : Spec.Typed k d) (p n : Nat)
    (h : expected k d = some n) : (lumpBytes k p d).length = n := by
  match k, d, hk, hd, h with
  | .text, .text s, _, _, h => simp only [expected, Option.some.injEq] at h; subst h; simp [lumpBytes]
  | .raw, .raw b, _, _, h => simp only [expected, Option.some.injEq] at h; subst h; simp [lumpBytes]
  | .recs types size, .recs rs, hk, hd, h =>
    simp only [expected, Option.some.injEq] at h
    subst h
    show (rs.flatMap (encodeFields types)).length = _
    rw [flatMap_length types rs hd, hk.1, Nat.mul_comm]

/-! ### Writing lumps -/

theorem writeLump_here {k : LumpKind} {d : LumpData} (hk : Spec.KindOk k) (hd : Spec.Typed k d) (i : Nat) (st : WState)
    (hs : st.out.length + (lumpBytes k st.out.length d).length < 2147483648) :
    writeLump k i d st = .ok ⟨st.out ++ lumpBytes k st.out.length d ++
      List.replicate (padTo4 (lumpBytes k st.out.length d).length) 0,
      st.dir.set i (st.out.length, (lumpBytes k st.out.length d).length)⟩ := by
  unfold writeLump
  generalize hbs : lumpBytes k st.out.length d = bs at *
  have e1 : i32.wrap st.out.length = st.out.length := i32_wrap (by omega) (by omega)
  have e2 : i32.wrap (st.out ++ bs).length = (st.out.length + bs.length : Nat) := by
    rw [List.length_append]; exact i32_wrap (by omega) (by omega)
  simp only [e1, e2]
  have e3 : (((st.out.length + bs.length : Nat) : Int) - (st.out.length : Int)) = bs.length := by push_cast; omega
  rw [e3, int32_ok (by omega) (by omega)]
  simp only [Outcome.ok_bind]
  rw [if_neg]
  · have e4 : ((bs.length : Int).tmod 4) = ((bs.length % 4 : Nat) : Int) := by
      rw [Int.tmod_eq_emod_of_nonneg (by omega)]; omega
    have e5 : (if (bs.length : Int).tmod 4 ≠ 0 then (4 - (bs.length : Int).tmod 4).toNat else 0) = padTo4 bs.length := by
      rw [e4]; unfold padTo4
      by_cases h : bs.length % 4 = 0
      · simp [h]
      · rw [if_pos (by omega), if_pos h]; omega
    rw [e5]
    rfl
  · cases he : expected k d with
    | none => simp
    | some n =>
      have := expected_length hk hd st.out.length n he
      rw [hbs] at this
      simp only [this, decide_eq_true_eq, ne_eq, not_not]
      exact u64_wrap (by omega) (by omega)

/-- The lump with number `i` is in the file. -/
def Placed (hdr : Nat) (kinds : List LumpKind) (data : List LumpData) (out : List Byte) (dir : List (Int × Int))
    (i : Nat) : Prop :=
  ∃ (k : LumpKind) (d : LumpData) (ofs : Nat) (rest : List Byte), kinds[i]? = some k ∧ data[i]? = some d ∧
    dir[i]? = some ((ofs : Int), ((lumpBytes k ofs d).length : Int)) ∧ out.drop ofs = lumpBytes k ofs d ++ rest ∧
    hdr ≤ ofs ∧ ofs % 4 = 0 ∧ ofs + (lumpBytes k ofs d).length ≤ out.length

structure Inv (hdr : Nat) (kinds : List LumpKind) (data : List LumpData) (done : List Nat) (st : WState) : Prop where
  len4 : st.out.length % 4 = 0
  hdr_le : hdr ≤ st.out.length
  dirlen : st.dir.length = kinds.length
  undone : ∀ i, i < kinds.length → i ∉ done → st.dir[i]? = some (0, 0)
  placed : ∀ i ∈ done, Placed hdr kinds data st.out st.dir i
  disj : ∀ i ∈ done, ∀ j ∈ done, i ≠ j → ∀ ei ej, st.dir[i]? = some ei → st.dir[j]? = some ej →
    ei.1 + ei.2 ≤ ej.1 ∨ ej.1 + ej.2 ≤ ei.1
  last : done ≠ [] → ∃ i ∈ done, ∃ e, st.dir[i]? = some e ∧ (st.out.length : Int) < e.1 + e.2 + 4

theorem Placed.append {hdr : Nat} {kinds : List LumpKind} {data : List LumpData} {out : List Byte}
    {dir dir' : List (Int × Int)} {i : Nat} (h : Placed hdr kinds data out dir i) (x : List Byte)
    (hd : dir'[i]? = dir[i]?) : Placed hdr kinds data (out ++ x) dir' i := by
  obtain ⟨k, d, ofs, rest, h1, h2, h3, h4, h5, h6, h7⟩ := h
  refine ⟨k, d, ofs, rest ++ x, h1, h2, by rw [hd]; exact h3, ?_, h5, h6, by rw [List.length_append]; omega⟩
  rw [List.drop_append_of_le_length (by omega), h4, List.append_assoc]

theorem Inv.step {hdr : Nat} {kinds : List LumpKind} {data : List LumpData} {done : List Nat} {st : WState}
    (h : Inv hdr kinds data done st) {i : Nat} (hi : i ∉ done) {k : LumpKind} {d : LumpData}
    (hk : kinds[i]? = some k) (hd : data[i]? = some d) :
    Inv hdr kinds data (i :: done) ⟨st.out ++ lumpBytes k st.out.length d ++
      List.replicate (padTo4 (lumpBytes k st.out.length d).length) 0,
      st.dir.set i (st.out.length, (lumpBytes k st.out.length d).length)⟩ := by
  have hil : i < kinds.length := (List.getElem?_eq_some_iff.mp hk).1
  have hset : (st.dir.set i ((st.out.length : Int), ((lumpBytes k st.out.length d).length : Int)))[i]? =
      some ((st.out.length : Int), ((lumpBytes k st.out.length d).length : Int)) := by
    rw [List.getElem?_set_self (by rw [h.dirlen]; exact hil)]
  have hne : ∀ j, j ≠ i →
      (st.dir.set i ((st.out.length : Int), ((lumpBytes k st.out.length d).length : Int)))[j]? = st.dir[j]? :=
    fun j hj => List.getElem?_set_ne (Ne.symm hj)
  have hp4 := padTo4_lt (lumpBytes k st.out.length d).length
  have hpd := padTo4_dvd (lumpBytes k st.out.length d).length
  have l4 := h.len4
  -- a lump that is there ends before the new one
  have hbefore : ∀ j ∈ done, ∀ e, st.dir[j]? = some e → e.1 + e.2 ≤ st.out.length := by
    intro j hj e he
    obtain ⟨k', d', ofs, rest, h1, h2, h3, h4, h5, h6, h7⟩ := h.placed j hj
    rw [h3] at he
    cases he
    simp only
    omega
  generalize hbs : lumpBytes k st.out.length d = bs at *
  constructor
  · simp only [List.length_append, List.length_replicate]; omega
  · simp only [List.length_append]; have := h.hdr_le; omega
  · simpa using h.dirlen
  · intro j hj hjd
    simp only [List.mem_cons, not_or] at hjd
    rw [hne j hjd.1]
    exact h.undone j hj hjd.2
  · intro j hj
    by_cases e : j = i
    · subst e
      refine ⟨k, d, st.out.length, List.replicate (padTo4 bs.length) 0, hk, hd, by rw [hbs]; exact hset, ?_, h.hdr_le,
        h.len4, ?_⟩
      · simp [hbs]
      · simp only [List.length_append, hbs]; omega
    · have := (h.placed j (by simpa [e] using hj)).append (bs ++ List.replicate (padTo4 bs.length) 0) (hne j e)
      simpa using this
  · intro a ha b hb hab ea eb hea heb
    by_cases e1 : a = i
    · subst e1
      rw [hset] at hea
      cases hea
      rw [hne b (Ne.symm hab)] at heb
      have := hbefore b (by simpa [Ne.symm hab] using hb) eb heb
      right
      exact this
    · rw [hne a e1] at hea
      have ha' : a ∈ done := by simpa [e1] using ha
      by_cases e2 : b = i
      · subst e2
        rw [hset] at heb
        cases heb
        left
        exact hbefore a ha' ea hea
      · rw [hne b e2] at heb
        exact h.disj a ha' b (by simpa [e2] using hb) hab ea eb hea heb
  · intro _
    refine ⟨i, by simp, _, hset, ?_⟩
    simp only [List.length_append, List.length_replicate]
    push_cast
    omega

/-- The room a lump takes in the file. -/
def room (kinds : List LumpKind) (data : List LumpData) (i : Nat) : Nat :=
  match kinds[i]?, data[i]? with
  | some k, some d => (lumpBytes k 0 d).length + padTo4 (lumpBytes k 0 d).length
  | _, _ => 0

theorem writeLumps_here {hdr : Nat} {kinds : List LumpKind} {data : List LumpData} (hkinds : ∀ k ∈ kinds, Spec.KindOk k)
    (hty : ∀ (i : Nat) (k : LumpKind) (d : LumpData), kinds[i]? = some k → data[i]? = some d → Spec.Typed k d)
    (hlen : data.length = kinds.length) :
    ∀ (is : List Nat) (done : List Nat) (st : WState), Inv hdr kinds data done st →
      (∀ i ∈ is, i < kinds.length ∧ i ∉ done) → is.Nodup →
      st.out.length + (is.map (room kinds data)).sum < 2147483648 →
      ∃ st', writeLumps kinds data is st = .ok st' ∧ Inv hdr kinds data (is.reverse ++ done) st' ∧
        st'.out.length = st.out.length + (is.map (room kinds data)).sum ∧ st'.out.take hdr = st.out.take hdr := by
  intro is
  induction is with
  | nil => intro done st h _ _ _; exact ⟨st, rfl, by simpa using h, by simp, rfl⟩
  | cons i is ih =>
    intro done st h hi hnd hs
    obtain ⟨hi1, hi2⟩ := hi i (by simp)
    have hk : kinds[i]? = some kinds[i] := List.getElem?_eq_getElem hi1
    have hd : data[i]? = some (data[i]'(by omega)) := List.getElem?_eq_getElem (by omega)
    have hko := hkinds kinds[i] (List.getElem_mem hi1)
    have hdo := hty i _ _ hk hd
    generalize kinds[i] = k at *
    generalize data[i]'(by omega) = d at *
    have hroom : room kinds data i = (lumpBytes k st.out.length d).length +
        padTo4 (lumpBytes k st.out.length d).length := by
      unfold room
      rw [hk, hd, lumpBytes_length h.len4]
    simp only [List.map_cons, List.sum_cons] at hs
    have hw := writeLump_here hko hdo i st (by omega)
    have hstep := h.step hi2 hk hd
    obtain ⟨st', h1, h2, h3, h4⟩ := ih (i :: done) _ hstep (by
        intro j hj
        refine ⟨(hi j (by simp [hj])).1, ?_⟩
        simp only [List.mem_cons, not_or]
        refine ⟨?_, (hi j (by simp [hj])).2⟩
        rintro rfl
        exact (List.nodup_cons.mp hnd).1 hj) (List.nodup_cons.mp hnd).2 (by
        simp only [List.length_append, List.length_replicate]; omega)
    refine ⟨st', ?_, by simpa using h2, ?_, ?_⟩
    · simp only [writeLumps, Outcome.readAt, hk, hd, Outcome.ok_bind, hw, h1]
    · rw [h3]
      simp only [List.map_cons, List.sum_cons, List.length_append, List.length_replicate]
      omega
    · rw [h4]
      simp only
      rw [List.append_assoc, List.take_append_of_le_length h.hdr_le]

/-! ### Headers -/

/-- The size of the header. -/
def hdrSize (v : Ver) : Nat := if v.version.isSome then 160 else 124

theorem ident_holds (v : Ver) : i32.Holds v.ident := by cases v <;> decide

theorem flat_length (dir : List (Int × Int)) : (flat dir).length = 2 * dir.length := by
  induction dir with
  | nil => rfl
  | cons e es ih =>
    simp only [flat, List.flatMap_cons, List.length_append, List.length_cons, List.length_nil] at ih ⊢
    omega

theorem unflat_flat (dir : List (Int × Int)) : unflat (flat dir) = dir := by
  induction dir with
  | nil => rfl
  | cons e es ih => simpa [flat, unflat] using ih

theorem flat_holds (dir : List (Int × Int)) (h : ∀ e ∈ dir, i32.Holds e.1 ∧ i32.Holds e.2) :
    FieldsHold (List.replicate (2 * dir.length) i32) (flat dir) := by
  induction dir with
  | nil => trivial
  | cons e es ih =>
    have := ih (fun e he => h e (by simp [he]))
    obtain ⟨h1, h2⟩ := h e (by simp)
    rw [List.length_cons, show 2 * (es.length + 1) = 2 * es.length + 1 + 1 by omega, List.replicate_succ,
      List.replicate_succ]
    exact ⟨h1, h2, this⟩

theorem lumps_length (v : Ver) : v.lumps.length = if v.version.isSome then 19 else 15 := by cases v <;> rfl

/-- The fields of the header. -/
def headerFields (v : Ver) (dir : List (Int × Int)) : List Int :=
  match v.version with
  | some n => v.ident :: n :: flat dir
  | none => v.ident :: flat dir

theorem headerBytes_eq (v : Ver) (dir : List (Int × Int)) :
    headerBytes v dir = encodeFields (headerTypes v.version.isSome) (headerFields v dir) := by
  unfold headerBytes headerFields
  cases v.version <;> rfl

theorem headerFields_hold (v : Ver) (dir : List (Int × Int)) (hl : dir.length = v.lumps.length)
    (h : ∀ e ∈ dir, i32.Holds e.1 ∧ i32.Holds e.2) :
    FieldsHold (headerTypes v.version.isSome) (headerFields v dir) := by
  have hf := flat_holds dir h
  rw [hl, lumps_length] at hf
  unfold headerFields headerTypes
  cases hv : v.version with
  | none =>
    simp only [hv] at hf
    exact ⟨ident_holds v, hf⟩
  | some n =>
    simp only [hv] at hf
    have : n = 38 := by cases v <;> simp [Ver.version] at hv <;> omega
    subst this
    exact ⟨ident_holds v, by decide, hf⟩

theorem headerBytes_length (v : Ver) (dir : List (Int × Int)) (hl : dir.length = v.lumps.length)
    (h : ∀ e ∈ dir, i32.Holds e.1 ∧ i32.Holds e.2) : (headerBytes v dir).length = hdrSize v := by
  rw [headerBytes_eq, encodeFields_length _ _ (headerFields_hold v dir hl h)]
  unfold hdrSize
  cases v.version.isSome <;> decide

/-! ### BSPX -/

/-- The directory entries of BSPX lumps whose data starts at `pos`. -/
def bspxEntries : Nat → Bspx → List (List Byte × Nat × Nat)
  | _, [] => []
  | pos, e :: rest => (lumpName e.1, pos, e.2.length) :: bspxEntries (pos + e.2.length + padTo4 e.2.length) rest

/-- The data of BSPX lumps. -/
def bspxData (x : Bspx) : List Byte := x.flatMap fun e => e.2 ++ List.replicate (padTo4 e.2.length) 0

/-- The bytes of the directory. -/
def bspxDir (es : List (List Byte × Nat × Nat)) : List Byte := es.flatMap fun e => bspxLumpBytes e.1 e.2.1 e.2.2

theorem lumpName_length (name : List Byte) : (lumpName name).length = 24 := by
  unfold lumpName
  simp only [List.length_append, List.length_take, List.length_replicate]
  omega

theorem bspxDir_length (x : Bspx) : ∀ pos, (bspxDir (bspxEntries pos x)).length = 32 * x.length := by
  induction x with
  | nil => intro pos; rfl
  | cons e rest ih =>
    intro pos
    have := ih (pos + e.2.length + padTo4 e.2.length)
    have e1 : bspxDir (bspxEntries pos (e :: rest)) = bspxLumpBytes (lumpName e.1) pos e.2.length ++
        bspxDir (bspxEntries (pos + e.2.length + padTo4 e.2.length) rest) := by
      simp [bspxDir, bspxEntries]
    rw [e1, List.length_append, this]
    simp only [bspxLumpBytes, List.length_append, lumpName_length, encode_length, List.length_cons]
    omega

theorem writeBspxData_here : ∀ (x : Bspx) (out : List Byte), out.length + (bspxData x).length < 4294967296 →
    writeBspxData out x = (out ++ bspxData x, bspxDir (bspxEntries out.length x)) := by
  intro x
  induction x with
  | nil => intro out _; simp [writeBspxData, bspxData, bspxDir, bspxEntries]
  | cons e rest ih =>
    intro out h
    simp only [bspxData, List.flatMap_cons, List.length_append, List.length_replicate] at h
    have := ih (out ++ e.2 ++ List.replicate (padTo4 e.2.length) 0) (by
      simp only [List.length_append, List.length_replicate, bspxData]; omega)
    simp only [writeBspxData, this]
    rw [u32_wrap (by omega) (by omega), u32_wrap (by omega) (by omega)]
    simp [bspxData, bspxDir, bspxEntries, Nat.add_assoc]

theorem overwrite_mid (a b c d : List Byte) (h : d.length = b.length) : overwrite (a ++ b ++ c) a.length d = a ++ d ++ c := by
  unfold overwrite
  have e1 : (a ++ b ++ c).take a.length = a := by rw [List.append_assoc, List.take_left]
  have e2 : (a ++ b ++ c).drop (a.length + d.length) = c := by
    rw [h, ← List.length_append, List.drop_left]
  rw [e1, e2]

/-- What `write_bspx` appends. -/
def bspxPart (base : Nat) (x : Bspx) : List Byte :=
  if x = [] then []
  else bspxId ++ u32.encode x.length ++ bspxDir (bspxEntries (base + 8 + 32 * x.length) x) ++ bspxData x

theorem bspxPart_length (base : Nat) (x : Bspx) : (bspxPart base x).length =
    if x = [] then 0 else 8 + 32 * x.length + (bspxData x).length := by
  unfold bspxPart
  split
  · rfl
  · simp only [List.length_append, encode_length, bspxDir_length]
    simp [bspxId]

theorem writeBspx_here (x : Bspx) (out : List Byte) (h4 : out.length % 4 = 0)
    (h : out.length + (bspxPart out.length x).length < 4294967296) :
    writeBspx x out = .ok (out ++ bspxPart out.length x) := by
  rw [bspxPart_length] at h
  unfold writeBspx bspxPart
  by_cases hx : x = []
  · simp [hx]
  · rw [if_neg hx] at h ⊢
    rw [if_neg (by simpa using hx), if_neg (by simpa using h4)]
    rw [u32_wrap (by omega) (by omega)]
    have hl1 : (out ++ bspxId ++ u32.encode x.length).length = out.length + 8 := by
      simp [bspxId]
    have hl2 : (out ++ bspxId ++ u32.encode x.length ++ List.replicate (32 * x.length) 0).length =
        out.length + 8 + 32 * x.length := by
      rw [List.length_append, hl1, List.length_replicate]
    simp only
    rw [writeBspxData_here _ _ (by rw [hl2]; omega), hl2]
    refine congrArg Outcome.ok ?_
    simp only
    rw [overwrite_mid _ _ _ _ (by rw [bspxDir_length, List.length_replicate])]
    simp

end Verif.BspFile
