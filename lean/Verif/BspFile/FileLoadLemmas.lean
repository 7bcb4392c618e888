import Verif.BspFile.FileLemmas

namespace Verif.BspFile

open Verif Verif.Stream

/-! ### BSPX -/

theorem readChars_here : ∀ (bs mem rest : List Byte) (p : Nat), mem.drop p = bs ++ rest →
    readChars ⟨mem, p, false⟩ bs.length = .ok (some bs, ⟨mem, (p + bs.length : Nat), false⟩) := by
  intro bs
  induction bs with
  | nil => intro mem rest p _; simp [readChars]
  | cons b bs ih =>
    intro mem rest p h
    have h1 := read_here mem [b] (bs ++ rest) p (by simpa using h) (by simp)
    have h2 := drop_next (bs := [b]) (rest := bs ++ rest) (p := p) (mem := mem) (by simpa using h)
    have h3 := ih mem rest (p + 1) h2
    simp only [List.length_singleton] at h1
    simp only [List.length_cons, readChars, h1, Outcome.ok_bind, h3, Outcome.pure_eq]
    simp [Nat.add_assoc, Nat.add_comm 1]

theorem cstr_lumpName {name : List Byte} (h1 : name.length ≤ 23) (h2 : 0 ∉ name) : cstr (lumpName name) = .ok name := by
  unfold cstr lumpName
  have e : min name.length 23 = name.length := by omega
  rw [e, List.take_length]
  rw [if_pos (by
    refine List.mem_append_right _ ?_
    rw [List.mem_replicate]
    exact ⟨by omega, rfl⟩)]
  refine congrArg Outcome.ok ?_
  rw [List.takeWhile_append_of_pos]
  · have : 24 - name.length = (23 - name.length) + 1 := by omega
    rw [this, List.replicate_succ]
    simp
  · intro a ha
    simp only [decide_eq_true_eq, ne_eq]
    rintro rfl
    exact h2 ha

theorem assign_new (m : Bspx) (n d : List Byte) (h : n ∉ m.map Prod.fst) : assign m n d = m ++ [(n, d)] := by
  unfold assign
  rw [if_neg]
  simp only [List.any_eq_true, decide_eq_true_eq, not_exists, not_and]
  intro e he heq
  exact h (List.mem_map.mpr ⟨e, he, heq⟩)

theorem readBspxLumps_here (file : List Byte) (hf : file.length < 2147483648) :
    ∀ (x : Bspx) (m : Bspx) (q pos : Nat) (z w : List Byte), (∀ e ∈ x, e.1.length ≤ 23 ∧ 0 ∉ e.1) →
      ((m ++ x).map Prod.fst).Nodup → file.drop q = bspxDir (bspxEntries pos x) ++ z →
      file.drop pos = bspxData x ++ w → pos + (bspxData x).length ≤ file.length →
      readBspxLumps file ⟨file, q, false⟩ x.length m = .ok (m ++ x) := by
  intro x
  induction x with
  | nil => intro m q pos z w _ _ _ _ _; simp [readBspxLumps]
  | cons e rest ih =>
    intro m q pos z w hn hnd hd hx hl
    obtain ⟨hn1, hn2⟩ := hn e (by simp)
    simp only [bspxData, List.flatMap_cons, List.length_append, List.length_replicate] at hl
    have e1 : bspxDir (bspxEntries pos (e :: rest)) = bspxLumpBytes (lumpName e.1) pos e.2.length ++
        bspxDir (bspxEntries (pos + e.2.length + padTo4 e.2.length) rest) := by
      simp [bspxDir, bspxEntries]
    rw [e1] at hd
    simp only [bspxLumpBytes, List.append_assoc] at hd
    have r1 := readChars_here _ _ _ _ hd
    rw [lumpName_length] at r1
    have hd2 := drop_next hd
    rw [lumpName_length] at hd2
    have r2 := fields_here [u32, u32] (by decide) [(pos : Int), (e.2.length : Int)] file
      (bspxDir (bspxEntries (pos + e.2.length + padTo4 e.2.length) rest) ++ z) (q + 24)
      ⟨u32_holds (by omega) (by omega), u32_holds (by omega) (by omega), trivial⟩ (by
        rw [hd2]; simp [encodeFields])
    have hd3 : file.drop (q + 24 + 8) = bspxDir (bspxEntries (pos + e.2.length + padTo4 e.2.length) rest) ++ z := by
      have := drop_next hd2
      have := drop_next this
      simpa [Nat.add_assoc] using this
    have hx1 : file.drop pos = e.2 ++ (List.replicate (padTo4 e.2.length) 0 ++ bspxData rest ++ w) := by
      rw [hx]; simp [bspxData]
    have hx2 := drop_next hx1
    rw [List.append_assoc] at hx2
    have hx3 := drop_next hx2
    rw [List.length_replicate] at hx3
    have hnd' : ((m ++ [(e.1, e.2)] ++ rest).map Prod.fst).Nodup := by simpa using hnd
    have hnew : e.1 ∉ m.map Prod.fst := by
      intro hmem
      rw [List.map_append, List.nodup_append] at hnd
      exact hnd.2.2 _ hmem _ (by simp) rfl
    have := ih (m ++ [(e.1, e.2)]) (q + 24 + 8) (pos + e.2.length + padTo4 e.2.length) z w
      (fun e he => hn e (by simp [he])) hnd' hd3 hx3 (by simp only [bspxData]; omega)
    simp only [List.length_cons, readBspxLumps, r1, Outcome.ok_bind, r2]
    have hw : width [u32, u32] = 8 := by decide
    rw [u32_wrap (by omega) (by omega)]
    rw [if_neg (by omega), if_pos (by omega), cstr_lumpName hn1 hn2]
    simp only [Outcome.ok_bind, hw, Int.toNat_natCast, hx1, List.take_left]
    rw [assign_new m e.1 e.2 hnew, this]
    simp

theorem lumpsEnd_spec : ∀ (dir : List (Int × Int)) (m : Int), 0 ≤ m →
    (∀ e ∈ dir, 0 ≤ e.1 + e.2 ∧ e.1 + e.2 ≤ 2147483647) →
    ∃ r, lumpsEnd m dir = .ok r ∧ m ≤ r ∧ (∀ e ∈ dir, e.1 + e.2 ≤ r) ∧ (r = m ∨ ∃ e ∈ dir, r = e.1 + e.2) := by
  intro dir
  induction dir with
  | nil => intro m _ _; exact ⟨m, rfl, by omega, by simp, Or.inl rfl⟩
  | cons e es ih =>
    intro m hm h
    obtain ⟨h1, h2⟩ := h e (by simp)
    obtain ⟨r, hr, a1, a2, a3⟩ := ih (max m (e.1 + e.2)) (by omega) (fun e he => h e (by simp [he]))
    refine ⟨r, ?_, by omega, ?_, ?_⟩
    · simp only [lumpsEnd]
      rw [int32_ok (by omega) (by omega)]
      simp only [Outcome.ok_bind]
      rw [u64_wrap (by omega) (by omega), hr]
    · intro e' he'
      rcases List.mem_cons.mp he' with rfl | he'
      · omega
      · exact a2 e' he'
    · rcases a3 with a3 | ⟨e', he', a3⟩
      · by_cases hc : m ≤ e.1 + e.2
        · exact Or.inr ⟨e, by simp, by omega⟩
        · exact Or.inl (by omega)
      · exact Or.inr ⟨e', by simp [he'], a3⟩

theorem readBspx_here {file out : List Byte} {dir : List (Int × Int)} {x : Bspx} (hf : file.length < 2147483648)
    (h4 : out.length % 4 = 0) (hfile : file.drop out.length = bspxPart out.length x)
    (hlen : file.length = out.length + (bspxPart out.length x).length)
    (hdir : ∀ e ∈ dir, 0 ≤ e.1 + e.2 ∧ e.1 + e.2 ≤ out.length)
    (hlast : ∃ e ∈ dir, (out.length : Int) < e.1 + e.2 + 4)
    (hn : ∀ e ∈ x, e.1.length ≤ 23 ∧ 0 ∉ e.1) (hnd : (x.map Prod.fst).Nodup) (q : Int) :
    readBspx file ⟨file, q, false⟩ dir = .ok x := by
  obtain ⟨r, hr, a1, a2, a3⟩ := lumpsEnd_spec dir 0 (by omega) (fun e he => by
    have := hdir e he; omega)
  have hr4 : (r + 3) / 4 * 4 = out.length := by
    obtain ⟨e, he, hl⟩ := hlast
    have b1 := a2 e he
    have b2 : r ≤ out.length := by
      rcases a3 with a3 | ⟨e', he', a3⟩
      · omega
      · have := (hdir e' he').2; omega
    omega
  unfold readBspx
  rw [hr]
  simp only [Outcome.ok_bind, hr4]
  have w1 : u64.wrap (out.length : Int) = out.length := u64_wrap (by omega) (by omega)
  have w2 : u64.wrap ((out.length : Int) + 8) = out.length + 8 := u64_wrap (by omega) (by omega)
  have w3 : i64.wrap (out.length : Int) = out.length := i64_wrap (by omega) (by omega)
  simp only [w1, w2, w3]
  have hpl := bspxPart_length out.length x
  by_cases hx : x = []
  · subst hx
    simp only [if_true] at hpl
    rw [if_neg (by omega)]
    rfl
  · rw [if_neg hx] at hpl
    rw [if_pos (by omega)]
    unfold bspxPart at hfile
    rw [if_neg hx] at hfile
    simp only [List.append_assoc] at hfile
    have r1 := readChars_here _ _ _ _ hfile
    have d1 := drop_next hfile
    have r2 := scalar_here file _ _ u32 (by decide) x.length (u32_holds (by omega) (by omega)) d1
    have d2 := drop_next d1
    rw [encode_length] at d2
    have d3 := drop_next d2
    rw [bspxDir_length] at d3
    have el : bspxId.length = 4 := rfl
    rw [el] at r1 r2 d1 d2 d3
    have r3 := readBspxLumps_here file hf x [] (out.length + 4 + 4) (out.length + 8 + 32 * x.length) (bspxData x) []
      hn (by simpa using hnd) d2 (by rw [List.append_nil]; exact d3) (by omega)
    simp only [IStream.seek, Bool.false_eq_true, if_false, r1, Outcome.ok_bind, r2, if_true, Int.toNat_natCast]
    simpa using r3

/-! ### Lumps -/

theorem readLumps_here (file : List Byte) (hf : file.length < 2147483648) : ∀ (ks : List LumpKind)
    (es : List (Int × Int)) (ds : List LumpData), ks.length = es.length → ks.length = ds.length →
    (∀ k ∈ ks, Spec.KindOk k) →
    (∀ (i : Nat) (k : LumpKind) (e : Int × Int) (d : LumpData), ks[i]? = some k → es[i]? = some e → ds[i]? = some d →
      Spec.Typed k d ∧ (k ≠ .unused → ∃ (ofs : Nat) (rest : List Byte), e = ((ofs : Int), ((lumpBytes k ofs d).length : Int)) ∧
        ofs % 4 = 0 ∧ file.drop ofs = lumpBytes k ofs d ++ rest)) →
    ∀ q : Int, ∃ q', readLumps ⟨file, q, false⟩ ks es = .ok (ds.map Spec.loaded, ⟨file, q', false⟩) := by
  intro ks
  induction ks with
  | nil =>
    intro es ds h1 h2 _ _ q
    have := List.length_eq_zero_iff.mp h2.symm
    subst this
    exact ⟨q, by simp [readLumps]⟩
  | cons k ks ih =>
    intro es ds h1 h2 hk h q
    cases es with
    | nil => simp at h1
    | cons e es =>
      cases ds with
      | nil => simp at h2
      | cons d ds =>
        obtain ⟨ht, hp⟩ := h 0 k e d rfl rfl rfl
        have hread : ∃ q', readLump ⟨file, q, false⟩ k e.1 e.2 = .ok (Spec.loaded d, ⟨file, q', false⟩) := by
          by_cases hu : k = .unused
          · subst hu
            cases d <;> simp only [Spec.Typed] at ht
            exact ⟨q, rfl⟩
          · obtain ⟨ofs, rest, he, h4, hdrop⟩ := hp hu
            subst he
            exact readLump_here (hk k (by simp)) ht h4 hf hdrop q
        obtain ⟨q1, hq1⟩ := hread
        obtain ⟨q2, hq2⟩ := ih es ds (by simpa using h1) (by simpa using h2) (fun k hk' => hk k (by simp [hk']))
          (fun i k e d a b c => h (i + 1) k e d a b c) q1
        refine ⟨q2, ?_⟩
        simp only [readLumps, hq1, Outcome.ok_bind, hq2]
        rfl

/-! ### The header -/

/-- The version that `BSPVersionSupported` finds. -/
def Ver.base : Ver → Ver
  | .h2 => .q1
  | .h2bsp2 => .bsp2
  | .h2bsp2rmq => .bsp2rmq
  | v => v

theorem supported_here (v : Ver) : supported v.ident v.version = .ok (some v.base) := by cases v <;> decide

theorem isQ2_iff (v : Ver) : (decide (v.ident = 0x50534249) || decide (v.ident = 0x50534251)) = v.version.isSome := by
  cases v <;> decide

theorem readHeader_here {file rest : List Byte} {v : Ver} {dir : List (Int × Int)} (hl : dir.length = v.lumps.length)
    (hd : ∀ e ∈ dir, i32.Holds e.1 ∧ i32.Holds e.2) (hf : file = headerBytes v dir ++ rest)
    (hh : v.base.game = .quake → isHexen2 file dir v.base = .ok v.hexen2) :
    ∃ q, readHeader file = .ok (v, dir, ⟨file, q, false⟩) := by
  have hfields := headerFields_hold v dir hl hd
  rw [headerBytes_eq] at hf
  have r2 := fields_here (headerTypes v.version.isSome) (by cases v.version.isSome <;> decide) (headerFields v dir) file rest
    0 hfields (by rw [List.drop_zero]; exact hf)
  have hid : ∃ rest', file.drop 0 = i32.encode v.ident ++ rest' := by
    rw [List.drop_zero, hf]
    unfold headerTypes headerFields
    cases v.version with
    | none => exact ⟨_, by simp only [Option.isSome_none, Bool.false_eq_true, if_false, encodeFields, List.append_assoc]; rfl⟩
    | some n => exact ⟨_, by simp only [Option.isSome_some, if_true, encodeFields, List.append_assoc]; rfl⟩
  obtain ⟨rest', hid⟩ := hid
  have r1 := scalar_here file rest' 0 i32 (by decide) v.ident (ident_holds v) hid
  refine ⟨((0 + width (headerTypes v.version.isSome) : Nat) : Int), ?_⟩
  · unfold readHeader
    have e : IStream.open file = ⟨file, (0 : Nat), false⟩ := rfl
    simp only [e, r1, Outcome.ok_bind, Option.getD_some, IStream.seek, Bool.false_eq_true, if_false, isQ2_iff]
    have e0 : ((0 : Int)) = ((0 : Nat) : Int) := rfl
    simp only [e0, r2, defined, Outcome.ok_bind]
    have hver : (if v.version.isSome = true then (headerFields v dir)[1]? else none) = v.version := by
      unfold headerFields
      cases v.version <;> simp
    have hdir : unflat ((headerFields v dir).drop (if v.version.isSome = true then 2 else 1)) = dir := by
      unfold headerFields
      cases v.version <;> simp [unflat_flat]
    rw [hver, hdir, supported_here]
    simp only [Outcome.ok_bind]
    by_cases hg : v.base.game = .quake
    · rw [if_pos hg, hh hg]
      simp only [Outcome.ok_bind]
      cases v <;> first | rfl | (simp [Ver.base, Ver.game] at hg)
    · rw [if_neg hg]
      cases v <;> first | rfl | (simp [Ver.base, Ver.game] at hg)

end Verif.BspFile
