import Verif.BspFile.FileLoadLemmas
import Verif.BspFile.FileSpec
import Mathlib.Tactic.Ring

namespace Verif.BspFile

open Verif Verif.Stream

theorem roundUp_eq (n : Nat) : Spec.roundUp n = n + padTo4 n := by
  unfold Spec.roundUp padTo4
  split <;> omega

theorem headerSize_eq (v : Ver) : Spec.headerSize v = hdrSize v := by
  unfold Spec.headerSize hdrSize
  rw [lumps_length]
  cases v.version.isSome <;> rfl

theorem rooms_eq (v : Ver) (d : FileBsp) (h : d.lumps.length = v.lumps.length) :
    (v.lumps.zip d.lumps).map (fun e => Spec.roundUp (lumpBytes e.1 0 e.2).length) =
      (List.range v.lumps.length).map (room v.lumps d.lumps) := by
  apply List.ext_getElem
  · simp [h]
  · intro i h1 h2
    simp only [List.length_map, List.length_range] at h2
    simp only [List.getElem_map, List.getElem_zip, List.getElem_range, room]
    rw [List.getElem?_eq_getElem h2, List.getElem?_eq_getElem (by omega)]
    simp only [roundUp_eq]

theorem rooms_order (v : Ver) (d : FileBsp) : (v.writeOrder.map (room v.lumps d.lumps)).sum =
    ((List.range v.lumps.length).map (room v.lumps d.lumps)).sum := by
  have h16 : v.game = .quake2 → room v.lumps d.lumps 16 = 0 := by
    intro hg
    have : v.lumps[16]? = some .unused := by cases v <;> first | rfl | simp [Ver.game] at hg
    unfold room
    rw [this]
    cases d.lumps[16]? with
    | none => rfl
    | some x => cases x <;> rfl
  by_cases hg : v.game = .quake2
  · have e1 : v.lumps.length = 19 := by cases v <;> first | rfl | simp [Ver.game] at hg
    have e2 : v.writeOrder = [1, 8, 2, 4, 5, 6, 9, 12, 11, 13, 10, 14, 15, 17, 18, 7, 3, 0] := by
      cases v <;> first | rfl | simp [Ver.game] at hg
    have e3 : List.range 19 = [0, 1, 2, 3, 4, 5, 6, 7, 8, 9, 10, 11, 12, 13, 14, 15, 16, 17, 18] := rfl
    have h := h16 hg
    rw [e1, e2, e3]
    generalize room v.lumps d.lumps = f at h ⊢
    simp only [List.map_cons, List.map_nil, List.sum_cons, List.sum_nil]
    rw [h]
    ring
  · have e1 : v.lumps.length = 15 := by cases v <;> first | rfl | simp [Ver.game] at hg
    have e2 : v.writeOrder = [1, 10, 3, 5, 6, 7, 9, 11, 13, 12, 14, 8, 4, 0, 2] := by
      cases v <;> first | rfl | simp [Ver.game] at hg
    have e3 : List.range 15 = [0, 1, 2, 3, 4, 5, 6, 7, 8, 9, 10, 11, 12, 13, 14] := rfl
    rw [e1, e2, e3]
    generalize room v.lumps d.lumps = f
    simp only [List.map_cons, List.map_nil, List.sum_cons, List.sum_nil]
    ring

theorem bspxSize_eq (base : Nat) (x : Bspx) : Spec.bspxSize x = (bspxPart base x).length := by
  rw [bspxPart_length]
  unfold Spec.bspxSize
  by_cases h : x = []
  · simp [h]
  · rw [if_neg h, if_neg h]
    suffices (x.map fun e => 32 + Spec.roundUp e.2.length).sum = 32 * x.length + (bspxData x).length by omega
    clear h
    induction x with
    | nil => rfl
    | cons e x ih =>
      have e1 : bspxData (e :: x) = e.2 ++ List.replicate (padTo4 e.2.length) 0 ++ bspxData x := by simp [bspxData]
      rw [List.map_cons, List.sum_cons, ih, e1, roundUp_eq]
      simp only [List.length_append, List.length_replicate, List.length_cons]
      omega

theorem Inv.entry {hdr : Nat} {kinds : List LumpKind} {data : List LumpData} {done : List Nat} {st : WState}
    (h : Inv hdr kinds data done st) {e : Int × Int} (he : e ∈ st.dir) :
    0 ≤ e.1 ∧ 0 ≤ e.2 ∧ e.1 + e.2 ≤ st.out.length ∧ e.1 % 4 = 0 ∧ (e = (0, 0) ∨ hdr ≤ e.1) := by
  obtain ⟨i, hi⟩ := List.getElem?_of_mem he
  have hil : i < kinds.length := by
    have := (List.getElem?_eq_some_iff.mp hi).1
    rw [h.dirlen] at this
    exact this
  by_cases hd : i ∈ done
  · obtain ⟨k, d, ofs, rest, _, _, h3, _, h5, h6, h7⟩ := h.placed i hd
    rw [hi] at h3
    injection h3 with h3
    subst h3
    refine ⟨by simp, by simp, ?_, ?_, Or.inr ?_⟩
    · simp only; omega
    · simp only; omega
    · simp only; omega
  · have := h.undone i hil hd
    rw [hi] at this
    injection this with this
    subst this
    exact ⟨by simp, by simp, by simp, by simp, Or.inl rfl⟩

theorem order_spec (v : Ver) : (∀ i ∈ v.writeOrder, i < v.lumps.length) ∧ v.writeOrder.Nodup ∧ v.writeOrder ≠ [] ∧
    ∀ i < v.lumps.length, i ∉ v.writeOrder → v.lumps[i]? = some .unused := by cases v <;> decide

/-- What `WriteBSPFile` writes. -/
theorem writeBsp_here (v : Ver) (d : FileBsp) (ht : Spec.FileTyped v d) (hs : Spec.fileSize v d < 2147483648) :
    ∃ (out : List Byte) (dir : List (Int × Int)), writeBsp v d = .ok (out ++ bspxPart out.length d.bspx) ∧
      Inv (hdrSize v) v.lumps d.lumps v.writeOrder.reverse ⟨out, dir⟩ ∧ out.take (hdrSize v) = headerBytes v dir ∧
      out.length = Spec.mainSize v d ∧ (∀ e ∈ dir, i32.Holds e.1 ∧ i32.Holds e.2) := by
  obtain ⟨hl, hty⟩ := ht
  unfold Spec.fileSize at hs
  have hms : Spec.mainSize v d = hdrSize v + (v.writeOrder.map (room v.lumps d.lumps)).sum := by
    unfold Spec.mainSize
    rw [headerSize_eq, rooms_eq v d hl, rooms_order]
  obtain ⟨o1, o2, o3, o4⟩ := order_spec v
  have h0 : ∀ e ∈ List.replicate v.lumps.length ((0, 0) : Int × Int), i32.Holds e.1 ∧ i32.Holds e.2 := by
    intro e he
    rw [List.eq_of_mem_replicate he]
    decide
  have hl0 := headerBytes_length v (List.replicate v.lumps.length ((0, 0) : Int × Int)) (by simp) h0
  have inv0 : Inv (hdrSize v) v.lumps d.lumps [] ⟨headerBytes v (List.replicate v.lumps.length (0, 0)),
      List.replicate v.lumps.length (0, 0)⟩ := by
    refine ⟨?_, by rw [hl0], by simp, ?_, by simp, by simp, by simp⟩
    · simp only [hl0]; unfold hdrSize; split <;> rfl
    · intro i hi _
      simp [hi]
  obtain ⟨st, w1, w2, w3, w4⟩ := writeLumps_here (kinds_ok v) hty hl v.writeOrder [] _ inv0
    (fun i hi => ⟨o1 i hi, by simp⟩) o2 (by rw [hl0]; omega)
  simp only [hl0] at w3
  rw [List.append_nil] at w2
  have hb := bspxSize_eq st.out.length d.bspx
  have w5 := writeBspx_here d.bspx st.out w2.len4 (by omega)
  have hdir : ∀ e ∈ st.dir, i32.Holds e.1 ∧ i32.Holds e.2 := by
    intro e he
    obtain ⟨a1, a2, a3, _⟩ := w2.entry he
    refine ⟨i32_holds ?_ ?_, i32_holds ?_ ?_⟩ <;> omega
  have hl1 := headerBytes_length v st.dir w2.dirlen hdir
  have hle := w2.hdr_le
  refine ⟨headerBytes v st.dir ++ st.out.drop (hdrSize v), st.dir, ?_, ?_, ?_, ?_, hdir⟩
  · unfold writeBsp
    simp only [w1, Outcome.ok_bind, w5, Outcome.pure_eq]
    refine congrArg Outcome.ok ?_
    unfold overwrite
    rw [Nat.zero_add, hl1, List.drop_append_of_le_length hle]
    have : (headerBytes v st.dir ++ st.out.drop (hdrSize v)).length = st.out.length := by
      rw [List.length_append, hl1, List.length_drop]; omega
    rw [this]
    simp
  · have hlen : (headerBytes v st.dir ++ st.out.drop (hdrSize v)).length = st.out.length := by
      rw [List.length_append, hl1, List.length_drop]; omega
    refine ⟨?_, ?_, w2.dirlen, w2.undone, ?_, w2.disj, ?_⟩
    · simp only [hlen]; exact w2.len4
    · simp only [hlen]; exact hle
    · intro i hi
      obtain ⟨k, x, ofs, rest, h1, h2, h3, h4, h5, h6, h7⟩ := w2.placed i hi
      refine ⟨k, x, ofs, rest, h1, h2, h3, ?_, h5, h6, by simp only [hlen]; exact h7⟩
      simp only
      rw [List.drop_append, List.drop_eq_nil_of_le (by omega), List.nil_append, List.drop_drop, hl1,
        show hdrSize v + (ofs - hdrSize v) = ofs by omega]
      exact h4
    · simp only [hlen]; exact w2.last
  · rw [← hl1, List.take_left]
  · rw [List.length_append, hl1, List.length_drop, hms, ← w3]
    omega

/-! ### Layout -/

/-- Offsets and lengths of the BSPX lumps. -/
def extAt : Nat → Bspx → List (Nat × Nat)
  | _, [] => []
  | pos, e :: rest => (pos, e.2.length) :: extAt (pos + e.2.length + padTo4 e.2.length) rest

theorem extAt_length (x : Bspx) : ∀ pos, (extAt pos x).length = x.length := by
  induction x with
  | nil => intro _; rfl
  | cons e x ih => intro pos; simp [extAt, ih]

theorem extAt_dir (x : Bspx) : ∀ pos, bspxDir (bspxEntries pos x) =
    (x.zip (extAt pos x)).flatMap fun e => lumpName e.1.1 ++ u32.encode e.2.1 ++ u32.encode e.2.2 := by
  induction x with
  | nil => intro _; rfl
  | cons e x ih =>
    intro pos
    have e1 : bspxDir (bspxEntries pos (e :: x)) = bspxLumpBytes (lumpName e.1) pos e.2.length ++
        bspxDir (bspxEntries (pos + e.2.length + padTo4 e.2.length) x) := by
      simp [bspxDir, bspxEntries]
    rw [e1, ih, extAt, List.zip_cons_cons, List.flatMap_cons]
    rfl

theorem extAt_at (file : List Byte) (x : Bspx) : ∀ (pos : Nat) (w : List Byte), file.drop pos = bspxData x ++ w →
    ∀ (i : Nat) (e : List Byte × List Byte) (o : Nat × Nat), x[i]? = some e → (extAt pos x)[i]? = some o →
      o.2 = e.2.length ∧ ∃ rest, file.drop o.1 = e.2 ++ rest := by
  induction x with
  | nil => intro pos w _ i e o h; simp at h
  | cons e x ih =>
    intro pos w h i e' o hi ho
    have e1 : bspxData (e :: x) = e.2 ++ (List.replicate (padTo4 e.2.length) 0 ++ bspxData x) := by simp [bspxData]
    rw [e1, List.append_assoc, List.append_assoc] at h
    cases i with
    | zero =>
      simp only [List.getElem?_cons_zero, Option.some.injEq, extAt] at hi ho
      subst hi ho
      exact ⟨rfl, _, h⟩
    | succ i =>
      have h2 := drop_next (drop_next h)
      rw [List.length_replicate] at h2
      exact ih _ w h2 i e' o (by simpa using hi) (by simpa [extAt] using ho)

theorem extAt_bounds (x : Bspx) : ∀ (pos : Nat), pos % 4 = 0 → ∀ o ∈ extAt pos x,
    pos ≤ o.1 ∧ o.1 % 4 = 0 ∧ o.1 + o.2 ≤ pos + (bspxData x).length := by
  induction x with
  | nil => intro pos _ o ho; simp [extAt] at ho
  | cons e x ih =>
    intro pos h4 o ho
    have e1 : (bspxData (e :: x)).length = e.2.length + padTo4 e.2.length + (bspxData x).length := by
      simp [bspxData, Nat.add_assoc]
    have e2 := padTo4_dvd e.2.length
    simp only [extAt, List.mem_cons] at ho
    rcases ho with rfl | ho
    · simp only; omega
    · have := ih (pos + e.2.length + padTo4 e.2.length) (by omega) o ho
      omega

theorem extAt_apart (x : Bspx) : ∀ (pos : Nat), pos % 4 = 0 → (extAt pos x).Pairwise Spec.Apart := by
  induction x with
  | nil => intro _ _; exact List.Pairwise.nil
  | cons e x ih =>
    intro pos h4
    have e2 := padTo4_dvd e.2.length
    refine List.Pairwise.cons ?_ (ih _ (by omega))
    intro o ho
    have := (extAt_bounds x (pos + e.2.length + padTo4 e.2.length) (by omega) o ho).1
    left
    simp only
    omega

theorem at_of_drop {file bs rest : List Byte} {ofs : Nat} (h : file.drop ofs = bs ++ rest) (hl : ofs ≤ file.length) :
    Spec.At file ofs bs := by
  refine ⟨?_, by rw [h, List.take_left]⟩
  have := congrArg List.length h
  simp only [List.length_drop, List.length_append] at this
  omega

theorem layout_here (v : Ver) (d : FileBsp) {out : List Byte} {dir : List (Int × Int)}
    (inv : Inv (hdrSize v) v.lumps d.lumps v.writeOrder.reverse ⟨out, dir⟩)
    (hhdr : out.take (hdrSize v) = headerBytes v dir) :
    Spec.Layout v d (out ++ bspxPart out.length d.bspx) (dir.map fun e => (e.1.toNat, e.2.toNat)) out.length
      (extAt (out.length + 8 + 32 * d.bspx.length) d.bspx) := by
  obtain ⟨o1, o2, o3, o4⟩ := order_spec v
  have hent := fun e he => inv.entry (e := e) he
  simp only at hent
  have hmap : (dir.map fun e => (e.1.toNat, e.2.toNat)).map (fun e => ((e.1 : Int), (e.2 : Int))) = dir := by
    rw [List.map_map]
    conv_rhs => rw [← List.map_id dir]
    refine List.map_congr_left ?_
    intro e he
    obtain ⟨a1, a2, _⟩ := hent e he
    refine Prod.ext ?_ ?_
    · simp only [Function.comp_apply, id]; omega
    · simp only [Function.comp_apply, id]; omega
  have hle := inv.hdr_le
  have hlen4 := inv.len4
  simp only at hle hlen4
  have hpl := bspxPart_length out.length d.bspx
  have hdrop : d.bspx ≠ [] → ∃ z, (out ++ bspxPart out.length d.bspx).drop (out.length + 8 + 32 * d.bspx.length) =
      bspxData d.bspx ++ z := by
    intro hx
    refine ⟨[], ?_⟩
    rw [show out.length + 8 + 32 * d.bspx.length = out.length + (8 + 32 * d.bspx.length) by omega, ← List.drop_drop,
      List.drop_left]
    unfold bspxPart
    rw [if_neg hx, List.append_nil]
    have : (bspxId ++ u32.encode d.bspx.length ++
        bspxDir (bspxEntries (out.length + 8 + 32 * d.bspx.length) d.bspx)).length = 8 + 32 * d.bspx.length := by
      simp only [List.length_append, encode_length, bspxDir_length]
      simp [bspxId]
    rw [← this, List.drop_left]
  constructor
  · rw [hmap, ← hhdr]
    refine ⟨?_, ?_⟩
    · simp only [List.length_append, List.length_take]; omega
    · rw [List.drop_zero, List.length_take, Nat.min_eq_left hle, List.take_append_of_le_length hle]
  · simpa using inv.dirlen
  · intro i k x hk hx hu
    have hi : i ∈ v.writeOrder := by
      by_contra hc
      have := o4 i (List.getElem?_eq_some_iff.mp hk).1 hc
      rw [hk] at this
      injection this with this
      exact hu this
    obtain ⟨k', x', ofs, rest, h1, h2, h3, h4, h5, h6, h7⟩ := inv.placed i (by simpa using hi)
    rw [hk] at h1
    rw [hx] at h2
    injection h1 with h1
    injection h2 with h2
    subst h1 h2
    simp only at h3 h4 h7
    refine ⟨(ofs, (lumpBytes k ofs x).length), ?_, rfl, ?_⟩
    · rw [List.getElem?_map, h3]; rfl
    · refine at_of_drop (rest := rest ++ bspxPart out.length d.bspx) ?_ ?_
      · rw [List.drop_append_of_le_length (by omega), h4, List.append_assoc]
      · simp only [List.length_append]; omega
  · exact extAt_length _ _
  · intro hx
    rw [← extAt_dir]
    refine at_of_drop (rest := bspxData d.bspx) ?_ (by simp)
    rw [List.drop_left]
    unfold bspxPart
    rw [if_neg hx]
  · intro i e o he ho
    have hx : d.bspx ≠ [] := by
      intro h
      rw [h] at he
      simp at he
    obtain ⟨z, hz⟩ := hdrop hx
    obtain ⟨a1, rest, a2⟩ := extAt_at _ _ _ _ hz i e o he ho
    refine ⟨a1, at_of_drop a2 ?_⟩
    have := extAt_bounds d.bspx (out.length + 8 + 32 * d.bspx.length) (by omega) o (List.mem_of_getElem? ho)
    rw [if_neg hx] at hpl
    rw [List.length_append, hpl]
    omega
  · intro e he
    rw [List.mem_append, List.mem_cons] at he
    rcases he with he | rfl | he
    · rw [List.mem_map] at he
      obtain ⟨e', he', rfl⟩ := he
      have := hent e' he'
      simp only
      omega
    · exact hlen4
    · exact (extAt_bounds _ _ (by omega) e he).2.1
  · intro e he
    rw [List.length_append]
    rw [List.mem_append] at he
    rcases he with he | he
    · rw [List.mem_map] at he
      obtain ⟨e', he', rfl⟩ := he
      have := hent e' he'
      simp only
      omega
    · have hx : d.bspx ≠ [] := by
        intro h
        rw [h] at he
        simp [extAt] at he
      rw [if_neg hx] at hpl
      have := (extAt_bounds _ _ (by omega) e he).2.2
      omega
  · rw [headerSize_eq]
    have hdirs : ∀ e ∈ dir.map (fun e => (e.1.toNat, e.2.toNat)), (e = (0, 0) ∨ hdrSize v ≤ e.1) ∧ e.1 + e.2 ≤ out.length := by
      intro e he
      rw [List.mem_map] at he
      obtain ⟨e', he', rfl⟩ := he
      obtain ⟨a1, a2, a3, a4, a5⟩ := hent e' he'
      refine ⟨?_, by simp only; omega⟩
      rcases a5 with rfl | a5
      · exact Or.inl rfl
      · right; simp only; omega
    refine List.pairwise_append.mpr ⟨List.Pairwise.cons ?_ ?_, List.Pairwise.cons ?_ (extAt_apart _ _ (by omega)), ?_⟩
    · intro e he
      rcases (hdirs e he).1 with rfl | h
      · right; simp
      · left; simp only; omega
    · rw [List.pairwise_iff_getElem]
      intro i j hi hj hij
      simp only [List.length_map] at hi hj
      simp only [List.getElem_map]
      have hi' := List.getElem?_eq_getElem hi
      have hj' := List.getElem?_eq_getElem hj
      obtain ⟨b1, b2, _, _, b5⟩ := hent _ (List.getElem_mem hi)
      obtain ⟨c1, c2, _, _, c5⟩ := hent _ (List.getElem_mem hj)
      have hdl := inv.dirlen
      simp only at hdl
      unfold Spec.Apart
      by_cases hdi : i ∈ v.writeOrder
      · by_cases hdj : j ∈ v.writeOrder
        · have := inv.disj i (by simpa using hdi) j (by simpa using hdj) (by omega) _ _ hi' hj'
          simp only
          omega
        · have := inv.undone j (by omega) (by simpa using hdj)
          simp only at this
          rw [hj'] at this
          injection this with this
          rw [this]
          right; simp
      · have := inv.undone i (by omega) (by simpa using hdi)
        simp only at this
        rw [hi'] at this
        injection this with this
        rw [this]
        left; simp
    · intro o ho
      have hx : d.bspx ≠ [] := by
        intro h
        rw [h] at ho
        simp [extAt] at ho
      have := (extAt_bounds _ _ (by omega) o ho).1
      rw [if_neg hx]
      left; simp only; omega
    · intro a ha b hb
      have hb' : out.length ≤ b.1 := by
        rcases List.mem_cons.mp hb with rfl | hb
        · exact le_refl _
        · have := (extAt_bounds _ _ (by omega) b hb).1
          omega
      left
      rcases List.mem_cons.mp ha with rfl | ha
      · simp only; omega
      · have := (hdirs a ha).2
        omega

end Verif.BspFile
