import Verif.NormalsLump.Lemmas

/-! C239: the FACENORMALS lump holds the normals of the faces. -/

namespace Verif.NormalsLump

open Verif.Stream Verif.BspFile

variable {F : Type} (fl : Floats F)

/-- **C239**: what reading the lump gives: the right vectors for every vertex of every face, in a table without repeated vectors,
in which all are vectors of some vertex. The faces have as many edges as they have normals. -/
theorem normals_read_back (hs : fl.Sound) (faces : List (List (Normal F))) (data : List Byte)
    (hw : writeNormals fl faces = .ok data) :
    ∃ x, loadFaceNormals data (faces.map fun ns => (ns.length : Int)) = .ok x ∧
      List.Forall₂ (FaceEntries fl x.normals) x.perFace faces ∧
      ∃ us : List (Vec F), x.normals = us.map (fun u => [fl.bits u.x, fl.bits u.y, fl.bits u.z]) ∧
        us.Pairwise (fun a b => ¬ Same fl a b) ∧
        ∀ u ∈ us, ∃ ns ∈ faces, ∃ n ∈ ns, u = snap fl n.normal ∨ u = snap fl n.tangent ∨ u = snap fl n.bitangent := by
  have hn : (uniqueNormals fl faces).length < 4294967296 := by
    by_contra hn
    unfold writeNormals putCount at hw
    simp only [hn, if_false] at hw
    cases hw
  rw [writeNormals_eq fl faces hn] at hw
  injection hw with hw
  subst hw
  refine ⟨content fl faces, facenormals_roundtrip _ _ ?_ ?_ ?_ ?_, ?_, uniqueNormals fl faces, rfl, ?_, ?_⟩
  · intro n hn
    simp only [content, List.mem_map] at hn
    obtain ⟨u, _, rfl⟩ := hn
    exact ⟨hs.bits _, hs.bits _, hs.bits _, trivial⟩
  · intro vs hvs v hv
    simp only [content, List.mem_map] at hvs
    obtain ⟨ns, hns, rfl⟩ := hvs
    obtain ⟨n, hn', rfl⟩ := List.mem_map.mp hv
    have h : ∀ v ∈ vectorsOf fl n, v ∈ allVectors fl faces := fun v hv =>
      List.mem_flatMap.mpr ⟨ns, hns, List.mem_flatMap.mpr ⟨n, hn', hv⟩⟩
    obtain ⟨_, _, _, _, h1, h1'⟩ := lookup_lt fl faces _ (h (snap fl n.normal) (by simp [vectorsOf]))
    obtain ⟨_, _, _, _, h2, h2'⟩ := lookup_lt fl faces _ (h (snap fl n.tangent) (by simp [vectorsOf]))
    obtain ⟨_, _, _, _, h3, h3'⟩ := lookup_lt fl faces _ (h (snap fl n.bitangent) (by simp [vectorsOf]))
    exact ⟨u32_holds (by omega) (by omega), u32_holds (by omega) (by omega), u32_holds (by omega) (by omega), trivial⟩
  · simp [content]
  · simpa [content] using hn
  · simp only [content]
    rw [List.forall₂_map_left_iff]
    refine List.forall₂_same.mpr fun ns hns => ?_
    unfold FaceEntries
    rw [List.forall₂_map_left_iff]
    refine List.forall₂_same.mpr fun n hn' => ?_
    have h : ∀ v ∈ vectorsOf fl n, Entry fl ((uniqueNormals fl faces).map (vecBits fl))
        (lookup fl v (mapped (uniqueNormals fl faces) 0) : Nat) v := by
      intro v hv
      obtain ⟨i, u, h1, h2, h3, _⟩ := lookup_lt fl faces v
        (List.mem_flatMap.mpr ⟨ns, hns, List.mem_flatMap.mpr ⟨n, hn', hv⟩⟩)
      refine ⟨i, u, by rw [h3], h2, ?_⟩
      rw [List.getElem?_map, h1]
      rfl
    exact ⟨_, _, _, rfl, h _ (by simp [vectorsOf]), h _ (by simp [vectorsOf]), h _ (by simp [vectorsOf])⟩
  · exact (unique_props fl faces).1.imp fun h => less_not_same fl h
  · intro u hu
    obtain ⟨ns, hns, h⟩ := List.mem_flatMap.mp ((unique_props fl faces).2.2 u hu)
    obtain ⟨n, hn', h⟩ := List.mem_flatMap.mp h
    exact ⟨ns, hns, n, hn', by simpa [vectorsOf] using h⟩

/-- **C239**: writing never fails, unless there are 2^32 vectors: the size is what was counted. -/
theorem always_written (faces : List (List (Normal F))) (h : 3 * (faces.map List.length).sum < 4294967296) :
    ∃ data, writeNormals fl faces = .ok data := by
  refine ⟨_, writeNormals_eq fl faces (lt_of_le_of_lt ?_ h)⟩
  have h1 : ∀ v (s : List (Vec F)), (insert fl v s).length ≤ s.length + 1 := by
    intro v s
    induction s with
    | nil => simp [insert]
    | cons u us ih =>
      unfold insert
      split
      · simp
      · split
        · simpa using ih
        · simp
  have h2 : ∀ (vs s : List (Vec F)), (vs.foldl (fun s v => insert fl v s) s).length ≤ s.length + vs.length := by
    intro vs
    induction vs with
    | nil => intro s; simp
    | cons v vs ih =>
      intro s
      rw [List.foldl_cons, List.length_cons]
      have := ih (insert fl v s)
      have := h1 v s
      omega
  have h3 : (allVectors fl faces).length = 3 * (faces.map List.length).sum := by
    have h4 : ∀ ns : List (Normal F), (ns.flatMap (vectorsOf fl)).length = 3 * ns.length := by
      intro ns
      induction ns with
      | nil => rfl
      | cons n ns ih =>
        rw [List.flatMap_cons, List.length_append, ih, List.length_cons]
        simp only [vectorsOf, List.length_cons, List.length_nil]
        omega
    induction faces with
    | nil => rfl
    | cons ns fs ih =>
      have ih := ih (by simp only [List.map_cons, List.sum_cons] at h; omega)
      unfold allVectors at *
      rw [List.flatMap_cons, List.length_append, h4, ih, List.map_cons, List.sum_cons]
      omega
  have := h2 (allVectors fl faces) []
  rw [uniqueNormals_eq, ← h3]
  simpa using this

/-- **C239**: a vector is written as it is, or as an axis. -/
theorem kept_or_axis (hs : fl.Sound) (v : Vec F) : snap fl v = v ∨ Axis fl (snap fl v) := by
  unfold snap Axis
  split <;> [skip; split <;> [skip; split <;> [skip; split <;> [skip; split <;> [skip; split]]]]] <;>
    simp [hs.zero, hs.one, hs.minusOne]

theorem small_of_unit {a b c : ℝ} (hu : a ^ 2 + b ^ 2 + c ^ 2 = 1) (h : |a - 1| < 0.000001 ∨ |a - -1| < 0.000001) :
    |b| < 0.0015 ∧ |c| < 0.0015 := by
  have h1 : 1 - a ^ 2 < 0.000002 := by
    rcases h with h | h <;> rw [abs_lt] at h <;> nlinarith [h.1, h.2]
  constructor <;> refine abs_lt_of_sq_lt_sq ?_ (by norm_num) <;> nlinarith [sq_nonneg b, sq_nonneg c]

theorem one_cases {fl : Floats F} {v : F} (h : nearOne fl v = true) : |fl.val v - 1| < 0.000001 := by
  simpa [nearOne] using h

theorem minusOne_cases {fl : Floats F} {v : F} (h : nearMinusOne fl v = true) : |fl.val v - -1| < 0.000001 := by
  simpa [nearMinusOne] using h

/-- **C239**: vectors of length 1 are moved by less than 0.0015 in each direction. -/
theorem hardly_moved (hs : fl.Sound) (v : Vec F) (hu : Unit fl v) :
    |fl.val (snap fl v).x - fl.val v.x| < 0.0015 ∧ |fl.val (snap fl v).y - fl.val v.y| < 0.0015 ∧
      |fl.val (snap fl v).z - fl.val v.z| < 0.0015 := by
  unfold Unit at hu
  have hy : fl.val v.y ^ 2 + fl.val v.x ^ 2 + fl.val v.z ^ 2 = 1 := by linarith
  have hz : fl.val v.z ^ 2 + fl.val v.x ^ 2 + fl.val v.y ^ 2 = 1 := by linarith
  unfold snap
  split
  · rename_i h
    have h := one_cases h
    obtain ⟨h1, h2⟩ := small_of_unit hu (.inl h)
    simp only [hs.zero, hs.one, zero_sub, abs_neg, abs_sub_comm (1 : ℝ)]
    exact ⟨by linarith, h1, h2⟩
  split
  · rename_i h
    have h := minusOne_cases h
    obtain ⟨h1, h2⟩ := small_of_unit hu (.inr h)
    simp only [hs.zero, hs.minusOne, zero_sub, abs_neg, abs_sub_comm (-1 : ℝ)]
    exact ⟨by linarith, h1, h2⟩
  split
  · rename_i h
    have h := one_cases h
    obtain ⟨h1, h2⟩ := small_of_unit hy (.inl h)
    simp only [hs.zero, hs.one, zero_sub, abs_neg, abs_sub_comm (1 : ℝ)]
    exact ⟨h1, by linarith, h2⟩
  split
  · rename_i h
    have h := minusOne_cases h
    obtain ⟨h1, h2⟩ := small_of_unit hy (.inr h)
    simp only [hs.zero, hs.minusOne, zero_sub, abs_neg, abs_sub_comm (-1 : ℝ)]
    exact ⟨h1, by linarith, h2⟩
  split
  · rename_i h
    have h := one_cases h
    obtain ⟨h1, h2⟩ := small_of_unit hz (.inl h)
    simp only [hs.zero, hs.one, zero_sub, abs_neg, abs_sub_comm (1 : ℝ)]
    exact ⟨h1, h2, by linarith⟩
  split
  · rename_i h
    have h := minusOne_cases h
    obtain ⟨h1, h2⟩ := small_of_unit hz (.inr h)
    simp only [hs.zero, hs.minusOne, zero_sub, abs_neg, abs_sub_comm (-1 : ℝ)]
    exact ⟨h1, h2, by linarith⟩
  · norm_num

/-- **C239**: a vector close to an axis is written as that axis. -/
theorem snapped (hs : fl.Sound) (v : Vec F) (h : |fl.val v.x - 1| < 0.000001 ∨ |fl.val v.x + 1| < 0.000001 ∨
    |fl.val v.y - 1| < 0.000001 ∨ |fl.val v.y + 1| < 0.000001 ∨ |fl.val v.z - 1| < 0.000001 ∨ |fl.val v.z + 1| < 0.000001) :
    Axis fl (snap fl v) := by
  unfold snap
  split <;> [skip; split <;> [skip; split <;> [skip; split <;> [skip; split <;> [skip; split]]]]]
  all_goals first
    | (simp [Axis, hs.zero, hs.one, hs.minusOne]; done)
    | skip
  rename_i h1 h2 h3 h4 h5 h6
  simp only [nearOne, nearMinusOne, decide_eq_true_eq, sub_neg_eq_add] at h1 h2 h3 h4 h5 h6
  tauto

/-! Examples: a `float` is an integer here, with bits of 32-bit integers for -1 and 0 to 2; a wall with the normal (1, 0, 0). -/

/-- Small integers as numbers. -/
noncomputable def exampleFloats : Floats (Fin 3) :=
  ⟨fun v => if v = 2 then -1 else (v : ℕ), fun v => v.val, 0, 1, 2⟩

theorem exampleSound : exampleFloats.Sound where
  bits := by
    intro v
    show f32.Holds (v.val : Int)
    exact u32_holds (by omega) (by omega)
  zero := by simp [exampleFloats]
  one := by simp [exampleFloats]
  minusOne := by simp [exampleFloats]

example : ∃ data, writeNormals exampleFloats [[⟨⟨1, 0, 0⟩, ⟨0, 1, 0⟩, ⟨0, 0, 2⟩⟩, ⟨⟨1, 0, 0⟩, ⟨0, 1, 0⟩, ⟨0, 0, 1⟩⟩], []] = .ok data :=
  always_written _ _ (by simp)

example : Unit exampleFloats ⟨0, 2, 0⟩ := by simp [Unit, exampleFloats]

example : |exampleFloats.val (2 : Fin 3) + 1| < 0.000001 := by simp [exampleFloats]; norm_num

end Verif.NormalsLump
