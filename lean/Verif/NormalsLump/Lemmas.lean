import Verif.NormalsLump.Spec
import Verif.BspFile.BspxProps
import Mathlib.Tactic.Linarith
import Mathlib.Tactic.NormNum

namespace Verif.NormalsLump

open Verif.Stream Verif.BspFile

variable {F : Type} (fl : Floats F)

theorem less_iff (a b : Vec F) : less fl a b = true ↔ fl.val a.x < fl.val b.x ∨ (fl.val a.x = fl.val b.x ∧
    (fl.val a.y < fl.val b.y ∨ (fl.val a.y = fl.val b.y ∧ fl.val a.z < fl.val b.z))) := by
  unfold less
  simp only [Bool.or_eq_true, Bool.and_eq_true, Bool.not_eq_true', decide_eq_true_eq, decide_eq_false_iff_not, not_lt]
  constructor
  · rintro (h | ⟨h, h' | ⟨h1, h2⟩⟩)
    · exact .inl h
    · rcases lt_or_eq_of_le h with h | h
      · exact .inl h
      · exact .inr ⟨h, .inl h'⟩
    · rcases lt_or_eq_of_le h with h | h
      · exact .inl h
      · rcases lt_or_eq_of_le h1 with h1 | h1
        · exact .inr ⟨h, .inl h1⟩
        · exact .inr ⟨h, .inr ⟨h1, h2⟩⟩
  · rintro (h | ⟨h, h' | ⟨h1, h2⟩⟩)
    · exact .inl h
    · exact .inr ⟨le_of_eq h, .inl h'⟩
    · exact .inr ⟨le_of_eq h, .inr ⟨le_of_eq h1, h2⟩⟩

theorem same_iff (a b : Vec F) : (less fl a b = false ∧ less fl b a = false) ↔ Same fl a b := by
  rw [← Bool.not_eq_true, ← Bool.not_eq_true, less_iff, less_iff]
  unfold Same
  constructor
  · rintro ⟨h1, h2⟩
    push Not at h1 h2
    have hx : fl.val a.x = fl.val b.x := le_antisymm h2.1 h1.1
    have h3 := h1.2 hx
    have h4 := h2.2 hx.symm
    have hy : fl.val a.y = fl.val b.y := le_antisymm h4.1 h3.1
    exact ⟨hx, hy, le_antisymm (h4.2 hy.symm) (h3.2 hy)⟩
  · rintro ⟨hx, hy, hz⟩
    simp [hx, hy, hz]

theorem less_trans {a b c : Vec F} (h : less fl a b = true) (h' : less fl b c = true) : less fl a c = true := by
  rw [less_iff] at *
  rcases h with h | ⟨hx, h | ⟨hy, hz⟩⟩ <;> rcases h' with h' | ⟨hx', h' | ⟨hy', hz'⟩⟩
  · exact .inl (h.trans h')
  · exact .inl (by rw [← hx']; exact h)
  · exact .inl (by rw [← hx']; exact h)
  · exact .inl (by rw [hx]; exact h')
  · exact .inr ⟨hx.trans hx', .inl (h.trans h')⟩
  · exact .inr ⟨hx.trans hx', .inl (by rw [← hy']; exact h)⟩
  · exact .inl (by rw [hx]; exact h')
  · exact .inr ⟨hx.trans hx', .inl (by rw [hy]; exact h')⟩
  · exact .inr ⟨hx.trans hx', .inr ⟨hy.trans hy', hz.trans hz'⟩⟩

theorem less_not_same {a b : Vec F} (h : less fl a b = true) : ¬ Same fl a b := by
  intro hs
  rw [← same_iff, h] at hs
  simp at hs

theorem Same.refl (a : Vec F) : Same fl a a := ⟨rfl, rfl, rfl⟩

theorem mem_insert {v w : Vec F} : ∀ {s : List (Vec F)}, w ∈ insert fl v s → w = v ∨ w ∈ s := by
  intro s
  induction s with
  | nil => intro h; simpa [insert] using h
  | cons u us ih =>
    intro h
    unfold insert at h
    split at h
    · simpa using h
    · split at h
      · rcases List.mem_cons.mp h with h | h
        · exact .inr (by simp [h])
        · rcases ih h with h | h
          · exact .inl h
          · exact .inr (by simp [h])
      · exact .inr h

theorem insert_keeps {v w : Vec F} : ∀ {s : List (Vec F)}, w ∈ s → w ∈ insert fl v s := by
  intro s
  induction s with
  | nil => intro h; cases h
  | cons u us ih =>
    intro h
    unfold insert
    split
    · exact List.mem_cons_of_mem _ h
    · split
      · rcases List.mem_cons.mp h with h | h
        · simp [h]
        · exact List.mem_cons_of_mem _ (ih h)
      · exact h

theorem insert_has (v : Vec F) : ∀ s : List (Vec F), ∃ u ∈ insert fl v s, Same fl u v := by
  intro s
  induction s with
  | nil => exact ⟨v, by simp [insert], Same.refl fl v⟩
  | cons u us ih =>
    unfold insert
    split
    · exact ⟨v, by simp, Same.refl fl v⟩
    · rename_i h1
      split
      · obtain ⟨w, hw, hs⟩ := ih
        exact ⟨w, List.mem_cons_of_mem _ hw, hs⟩
      · rename_i h2
        exact ⟨u, by simp, (same_iff fl u v).mp ⟨by simpa using h2, by simpa using h1⟩⟩

theorem insert_sorted (v : Vec F) : ∀ s : List (Vec F), s.Pairwise (fun a b => less fl a b = true) →
    (insert fl v s).Pairwise (fun a b => less fl a b = true) := by
  intro s
  induction s with
  | nil => intro _; simp [insert]
  | cons u us ih =>
    intro h
    rw [List.pairwise_cons] at h
    unfold insert
    split
    · rename_i h1
      rw [List.pairwise_cons]
      refine ⟨fun w hw => ?_, List.pairwise_cons.mpr h⟩
      rcases List.mem_cons.mp hw with rfl | hw
      · exact h1
      · exact less_trans fl h1 (h.1 w hw)
    · split
      · rename_i h2
        rw [List.pairwise_cons]
        refine ⟨fun w hw => ?_, ih h.2⟩
        rcases mem_insert fl hw with rfl | hw
        · exact h2
        · exact h.1 w hw
      · exact List.pairwise_cons.mpr h

/-- All vectors of the faces, in their order. -/
noncomputable def allVectors (faces : List (List (Normal F))) : List (Vec F) := faces.flatMap fun ns => ns.flatMap (vectorsOf fl)

theorem foldl_flatMap {α β γ : Type} (g : α → List β) (op : γ → β → γ) : ∀ (l : List α) (s : γ),
    l.foldl (fun s a => (g a).foldl op s) s = (l.flatMap g).foldl op s := by
  intro l
  induction l with
  | nil => intro s; rfl
  | cons a l ih => intro s; rw [List.foldl_cons, ih, List.flatMap_cons, List.foldl_append]

theorem uniqueNormals_eq (faces : List (List (Normal F))) :
    uniqueNormals fl faces = (allVectors fl faces).foldl (fun s v => insert fl v s) [] := by
  unfold uniqueNormals allVectors
  rw [← foldl_flatMap]
  congr 1
  funext s ns
  rw [foldl_flatMap]

theorem foldl_insert (vs : List (Vec F)) : ∀ s : List (Vec F), s.Pairwise (fun a b => less fl a b = true) →
    (vs.foldl (fun s v => insert fl v s) s).Pairwise (fun a b => less fl a b = true) ∧
    (∀ w ∈ s, w ∈ vs.foldl (fun s v => insert fl v s) s) ∧
    (∀ v ∈ vs, ∃ u ∈ vs.foldl (fun s v => insert fl v s) s, Same fl u v) ∧
    (∀ w ∈ vs.foldl (fun s v => insert fl v s) s, w ∈ s ∨ w ∈ vs) := by
  induction vs with
  | nil => intro s hs; exact ⟨hs, fun _ h => h, fun _ h => absurd h (by simp), fun _ h => Or.inl h⟩
  | cons v vs ih =>
    intro s hs
    rw [List.foldl_cons]
    obtain ⟨h1, h2, h3, h4⟩ := ih _ (insert_sorted fl v s hs)
    refine ⟨h1, fun w hw => h2 w (insert_keeps fl hw), fun w hw => ?_, fun w hw => ?_⟩
    · rcases List.mem_cons.mp hw with rfl | hw
      · obtain ⟨u, hu, hs⟩ := insert_has fl w s
        exact ⟨u, h2 u hu, hs⟩
      · exact h3 w hw
    · rcases h4 w hw with h | h
      · rcases mem_insert fl h with h | h
        · exact .inr (by simp [h])
        · exact .inl h
      · exact .inr (List.mem_cons_of_mem _ h)

theorem lookup_mapped (v : Vec F) : ∀ (us : List (Vec F)) (k : Nat), (∃ u ∈ us, Same fl u v) →
    ∃ (i : Nat) (u : Vec F), us[i]? = some u ∧ Same fl u v ∧ lookup fl v (mapped us k) = k + i := by
  intro us
  induction us with
  | nil => rintro k ⟨u, h, _⟩; cases h
  | cons u us ih =>
    rintro k ⟨w, hw, hs⟩
    unfold mapped lookup
    split
    · rename_i h
      exact ⟨0, u, rfl, (same_iff fl u v).mp h, rfl⟩
    · rename_i h
      rcases List.mem_cons.mp hw with rfl | hw
      · exact absurd ((same_iff fl w v).mpr hs) h
      · obtain ⟨i, x, h1, h2, h3⟩ := ih (k + 1) ⟨w, hw, hs⟩
        exact ⟨i + 1, x, by simpa using h1, h2, by rw [h3]; omega⟩

/-- The indices of one vertex. -/
noncomputable def indices (m : List (Vec F × Nat)) (n : Normal F) : List Int :=
  [(lookup fl (snap fl n.normal) m : Nat), (lookup fl (snap fl n.tangent) m : Nat), (lookup fl (snap fl n.bitangent) m : Nat)]

theorem putFace_eq (m : List (Vec F × Nat)) : ∀ ns : List (Normal F),
    (∀ n ∈ ns, ∀ v ∈ vectorsOf fl n, lookup fl v m < 4294967296) →
    putFace fl m ns = .ok ((ns.map (indices fl m)).flatMap (encodeFields [u32, u32, u32])) := by
  intro ns
  induction ns with
  | nil => intro _; rfl
  | cons n ns ih =>
    intro h
    have h0 := h n (by simp)
    simp only [vectorsOf, List.mem_cons, List.not_mem_nil, or_false, forall_eq_or_imp, forall_eq] at h0
    unfold putFace
    rw [ih fun x hx => h x (List.mem_cons_of_mem _ hx)]
    simp only [vectorsOf, putVectors, putCount, h0.1, h0.2.1, h0.2.2, if_true, Outcome.ok_bind, List.map_cons,
      List.flatMap_cons, indices, encodeFields, List.append_nil]

theorem putFaces_eq (m : List (Vec F × Nat)) : ∀ fs : List (List (Normal F)),
    (∀ v ∈ allVectors fl fs, lookup fl v m < 4294967296) →
    putFaces fl m fs = .ok ((fs.map fun ns => ns.map (indices fl m)).flatMap fun vs =>
      vs.flatMap (encodeFields [u32, u32, u32])) := by
  intro fs
  induction fs with
  | nil => intro _; rfl
  | cons ns fs ih =>
    intro h
    unfold putFaces
    rw [ih fun v hv => h v (by unfold allVectors at *; rw [List.flatMap_cons]; exact List.mem_append_right _ hv),
      putFace_eq fl m ns fun n hn v hv => h v (by
        unfold allVectors
        rw [List.flatMap_cons]
        exact List.mem_append_left _ (List.mem_flatMap.mpr ⟨n, hn, hv⟩))]
    simp only [Outcome.ok_bind, List.map_cons, List.flatMap_cons]

theorem numNormals_from (faces : List (List (Normal F))) : ∀ k, faces.foldl (fun k ns => ns.foldl (fun k _ => k + 3) k) k =
    k + 3 * (faces.map List.length).sum := by
  have h1 : ∀ (ns : List (Normal F)) (k : Nat), ns.foldl (fun k _ => k + 3) k = k + 3 * ns.length := by
    intro ns
    induction ns with
    | nil => intro k; rfl
    | cons n ns ih => intro k; rw [List.foldl_cons, ih, List.length_cons]; omega
  induction faces with
  | nil => intro k; rfl
  | cons ns fs ih =>
    intro k
    rw [List.foldl_cons, h1, ih, List.map_cons, List.sum_cons]
    omega

theorem indices_bytes (m : List (Vec F × Nat)) : ∀ fs : List (List (Normal F)),
    ((fs.map fun ns => ns.map (indices fl m)).flatMap fun vs => vs.flatMap (encodeFields [u32, u32, u32])).length =
      12 * (fs.map List.length).sum := by
  have h1 : ∀ ns : List (Normal F), ((ns.map (indices fl m)).flatMap (encodeFields [u32, u32, u32])).length =
      12 * ns.length := by
    intro ns
    induction ns with
    | nil => rfl
    | cons n ns ih =>
      rw [List.map_cons, List.flatMap_cons, List.length_append, ih, List.length_cons]
      simp only [indices, encodeFields, List.length_append, encode_length, List.length_nil]
      omega
  intro fs
  induction fs with
  | nil => rfl
  | cons ns fs ih =>
    rw [List.map_cons, List.flatMap_cons, List.length_append, ih, h1, List.map_cons, List.sum_cons]
    omega

theorem table_bytes : ∀ us : List (Vec F), (us.flatMap fun u => encodeFields [f32, f32, f32] (vecBits fl u)).length = 12 * us.length := by
  intro us
  induction us with
  | nil => rfl
  | cons u us ih =>
    rw [List.flatMap_cons, List.length_append, ih, List.length_cons]
    simp only [vecBits, encodeFields, List.length_append, encode_length, List.length_nil]
    omega

/-- What the lump says. -/
noncomputable def content (faces : List (List (Normal F))) : FaceNormals :=
  ⟨(uniqueNormals fl faces).map (vecBits fl), faces.map fun ns => ns.map (indices fl (mapped (uniqueNormals fl faces) 0))⟩

theorem unique_props (faces : List (List (Normal F))) :
    (uniqueNormals fl faces).Pairwise (fun a b => less fl a b = true) ∧
    (∀ v ∈ allVectors fl faces, ∃ u ∈ uniqueNormals fl faces, Same fl u v) ∧
    ∀ w ∈ uniqueNormals fl faces, w ∈ allVectors fl faces := by
  rw [uniqueNormals_eq]
  obtain ⟨h1, _, h3, h4⟩ := foldl_insert fl (allVectors fl faces) [] List.Pairwise.nil
  exact ⟨h1, h3, fun w hw => (h4 w hw).resolve_left (by simp)⟩

theorem lookup_lt (faces : List (List (Normal F))) (v : Vec F) (hv : v ∈ allVectors fl faces) :
    ∃ (i : Nat) (u : Vec F), (uniqueNormals fl faces)[i]? = some u ∧ Same fl u v ∧
      lookup fl v (mapped (uniqueNormals fl faces) 0) = i ∧ i < (uniqueNormals fl faces).length := by
  obtain ⟨i, u, h1, h2, h3⟩ := lookup_mapped fl v _ 0 ((unique_props fl faces).2.1 v hv)
  exact ⟨i, u, h1, h2, by omega, (List.getElem?_eq_some_iff.mp h1).1⟩

theorem writeNormals_eq (faces : List (List (Normal F))) (hn : (uniqueNormals fl faces).length < 4294967296) :
    writeNormals fl faces = .ok (faceNormalsBytes (content fl faces)) := by
  have hl : ∀ v ∈ allVectors fl faces, lookup fl v (mapped (uniqueNormals fl faces) 0) < 4294967296 := by
    intro v hv
    obtain ⟨i, _, _, _, h, h'⟩ := lookup_lt fl faces v hv
    omega
  unfold writeNormals putCount
  simp only [hn, if_true, Outcome.ok_bind, putFaces_eq fl _ faces hl]
  rw [if_pos]
  · unfold faceNormalsBytes content
    simp only [List.length_map]
    rw [u32_wrap (by omega) (by omega)]
    simp only [List.flatMap_map]
  · rw [List.length_append, List.length_append, encode_length, table_bytes, indices_bytes]
    unfold numNormals
    rw [numNormals_from]
    show 4 + _ + _ = _
    omega

end Verif.NormalsLump
