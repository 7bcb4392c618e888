import Verif.Faces.OutlineLemmas
import Mathlib.Data.List.Basic
import Mathlib.Data.List.Nodup

/-! The limit of edges (C58): what splitting a face yields, and what happens when there are several faces. -/

namespace Verif.Faces

open Spec

theorem cutAlong_refl (p : List Nat) : CutAlong p [p] := ⟨[], by simp⟩

theorem mem_of_dropLast {α : Type} {a : α} {l : List α} (h : a ∈ l.dropLast) : a ∈ l :=
  (List.dropLast_prefix l).subset h

theorem splitLoop_spec (m : Nat) (hm : 3 ≤ m) :
    ∀ (n : Nat) (face : List Nat) (new : List (List Nat)), face.length ≤ n → 3 ≤ face.length →
      ∃ pieces last, (∀ fuel, face.length ≤ fuel → splitLoop m fuel face new = some (last, new ++ pieces)) ∧
        3 ≤ last.length ∧ last.length ≤ m ∧ (∀ p ∈ pieces, p.length = m) ∧ CutAlong face (pieces ++ [last]) ∧
        (∀ v, v ∈ (pieces ++ [last]).flatten → v ∈ face) ∧
        pieces.length * (m - 2) + (last.length - 2) = face.length - 2 ∧
        ∃ cs : List Nat, ((pieces ++ [last]).flatMap edgesOf).Perm (edgesOf face ++ cs.map (fun c => (c, face.headD 0)) ++
          cs.map (fun c => (face.headD 0, c))) ∧ (face.Nodup → cs.Nodup) ∧ ∀ c ∈ cs, c ∈ face.tail.tail.dropLast := by
  intro n
  induction n with
  | zero => intro face new h1 h2; omega
  | succ n ih =>
    intro face new hn h3
    by_cases hlen : face.length > m
    · obtain ⟨a, l, rfl⟩ : ∃ a l, face = a :: l := by
        cases face with
        | nil => simp at h3
        | cons a l => exact ⟨a, l, rfl⟩
      simp only [List.length_cons] at hlen hn h3
      have hdrop : l.drop (m - 2) = l[m - 2]'(by omega) :: l.drop (m - 1) := by
        have := List.drop_eq_getElem_cons (l := l) (i := m - 2) (by omega)
        rw [this]
        congr 2
        omega
      have hl : l = l.take (m - 2) ++ l[m - 2]'(by omega) :: l.drop (m - 1) := by
        rw [← hdrop, List.take_append_drop]
      set c := l[m - 2]'(by omega) with hc
      have hrest : (a :: l).take 1 ++ (a :: l).drop (m - 1) = a :: c :: l.drop (m - 1) := by
        have : (a :: l).drop (m - 1) = l.drop (m - 2) := by
          have : m - 1 = (m - 2) + 1 := by omega
          rw [this, List.drop_succ_cons]
        rw [this, hdrop]
        simp
      have hpiece : (a :: l).take m = a :: (l.take (m - 2) ++ [c]) := by
        have : m = (m - 2 + 1) + 1 := by omega
        rw [this, List.take_succ_cons]
        congr 1
        rw [List.take_add_one]
        simp [hc, show m - 2 < l.length by omega]
      have hlr : (a :: c :: l.drop (m - 1)).length = l.length + 1 - (m - 2) := by
        simp only [List.length_cons, List.length_drop]; omega
      obtain ⟨pieces, last, q1, q2, q3, q4, q5, q6, q7, cs, r1, r2, r3⟩ := ih (a :: c :: l.drop (m - 1)) (new ++ [(a :: l).take m])
        (by rw [hlr]; omega) (by rw [hlr]; omega)
      refine ⟨(a :: l).take m :: pieces, last, ?_, q2, q3, ?_, ?_, ?_, ?_, c :: cs, ?_, ?_, ?_⟩
      · intro fuel hf
        cases fuel with
        | zero => simp at hf
        | succ fuel =>
          unfold splitLoop
          rw [if_pos (by simpa using hlen)]
          simp only
          rw [hrest, q1 fuel (by rw [hlr]; simp only [List.length_cons] at hf; omega)]
          simp
      · intro p hp
        rcases List.mem_cons.mp hp with rfl | hp
        · rw [List.length_take, List.length_cons]; omega
        · exact q4 p hp
      · obtain ⟨chords, hch⟩ := q5
        refine ⟨(c, a) :: chords, ?_⟩
        have hcut := cutAlong_chord a c (l.take (m - 2)) (l.drop (m - 1))
        rw [← hl, ← hpiece] at hcut
        rw [List.cons_append, List.flatMap_cons]
        rw [List.perm_iff_count] at hch hcut ⊢
        intro e
        have e1 := hch e
        have e2 := hcut e
        simp only [List.count_append, List.map_cons, List.map_nil, List.count_cons, List.count_nil] at e1 e2 ⊢
        omega
      · intro v hv
        rw [List.cons_append, List.flatten_cons, List.mem_append] at hv
        rcases hv with hv | hv
        · exact List.mem_of_mem_take hv
        · have := q6 v hv
          rw [← hrest] at this
          rcases List.mem_append.mp this with h | h
          · exact List.mem_of_mem_take h
          · exact List.mem_of_mem_drop h
      · rw [hlr] at q7
        rw [List.length_cons, Nat.add_mul, Nat.one_mul]
        simp only [List.length_cons]
        omega
      · have hcut := cutAlong_chord a c (l.take (m - 2)) (l.drop (m - 1))
        rw [← hl, ← hpiece] at hcut
        rw [List.cons_append, List.flatMap_cons]
        simp only [List.headD_cons] at r1 ⊢
        rw [List.perm_iff_count] at r1 hcut ⊢
        intro e
        have e1 := r1 e
        have e2 := hcut e
        simp only [List.count_append, List.map_cons, List.map_nil, List.count_cons, List.count_nil, Prod.swap_prod_mk]
          at e1 e2 ⊢
        omega
      · intro hnd
        have hnd2 : (c :: l.drop (m - 1)).Nodup := by
          have : l.Nodup := (List.nodup_cons.mp hnd).2
          rw [hl] at this
          exact (List.nodup_append.mp this).2.1
        have hnd3 : (a :: c :: l.drop (m - 1)).Nodup := by
          refine List.nodup_cons.mpr ⟨?_, hnd2⟩
          intro h
          exact (List.nodup_cons.mp hnd).1 (hl ▸ List.mem_append_right _ h)
        refine List.nodup_cons.mpr ⟨?_, r2 hnd3⟩
        intro h
        have := mem_of_dropLast (r3 c h)
        simp only [List.tail_cons] at this
        exact (List.nodup_cons.mp hnd2).1 this
      · intro x hx
        have htail : (a :: l).tail.tail.dropLast = (l.take (m - 2)).tail ++ c :: (l.drop (m - 1)).dropLast := by
          simp only [List.tail_cons]
          have hne : l.take (m - 2) ≠ [] := by
            intro h
            have := congrArg List.length h
            rw [List.length_take, List.length_nil] at this
            omega
          have hne2 : l.drop (m - 1) ≠ [] := by
            intro h
            have := congrArg List.length h
            rw [List.length_drop, List.length_nil] at this
            omega
          conv_lhs => rw [hl]
          rw [List.tail_append_of_ne_nil hne, List.dropLast_append_of_ne_nil (by simp), List.dropLast_cons_of_ne_nil hne2]
        rw [htail]
        rcases List.mem_cons.mp hx with rfl | hx
        · simp
        · have := r3 x hx
          simp only [List.tail_cons] at this
          exact List.mem_append_right _ (List.mem_cons_of_mem _ this)
    · refine ⟨[], face, ?_, h3, by omega, by simp, cutAlong_refl face, by simp, by simp, [], by simp, by simp, by simp⟩
      intro fuel _
      unfold splitLoop
      rw [if_neg hlen]
      simp

theorem pathE_mem {a : Nat} {l : List Nat} {e : Nat × Nat} (h : e ∈ pathE a l) : e.1 ∈ a :: l.dropLast ∧ e.2 ∈ l := by
  induction l generalizing a with
  | nil => cases h
  | cons b l ih =>
    rcases List.mem_cons.mp h with rfl | h
    · simp
    · obtain ⟨h1, h2⟩ := ih h
      refine ⟨?_, List.mem_cons_of_mem _ h2⟩
      cases l with
      | nil => cases h
      | cons c l =>
        rw [List.dropLast_cons_of_ne_nil (by simp)]
        exact List.mem_cons_of_mem _ h1

theorem pathE_nodup {a : Nat} {l : List Nat} (h : (a :: l.dropLast).Nodup) : (pathE a l).Nodup := by
  induction l generalizing a with
  | nil => exact List.nodup_nil
  | cons b l ih =>
    cases l with
    | nil => simp [pathE]
    | cons c l =>
      rw [List.dropLast_cons_of_ne_nil (by simp)] at h
      refine List.nodup_cons.mpr ⟨?_, ih (List.nodup_cons.mp h).2⟩
      intro hm
      exact (List.nodup_cons.mp h).1 (pathE_mem hm).1

/-- The edges of a face with different vertices and the chords from its first vertex are all different. -/
theorem cut_nodup {face cs : List Nat} (hnd : face.Nodup) (hcs : cs.Nodup) (hc : ∀ c ∈ cs, c ∈ face.tail.tail.dropLast) :
    (edgesOf face ++ cs.map (fun c => (c, face.headD 0)) ++ cs.map (fun c => (face.headD 0, c))).Nodup := by
  cases face with
  | nil =>
    cases cs with
    | nil => simp [edgesOf]
    | cons c cs => exact absurd (hc c List.mem_cons_self) (by simp)
  | cons a l =>
    cases l with
    | nil =>
      cases cs with
      | nil => simp [edgesOf]
      | cons c cs => exact absurd (hc c List.mem_cons_self) (by simp)
    | cons b l =>
      simp only [List.tail_cons, List.headD_cons] at hc ⊢
      have hl : l = [] ∨ ∃ l' z, l = l' ++ [z] := by
        rcases List.eq_nil_or_concat l with h | ⟨l', z, h⟩
        · exact Or.inl h
        · exact Or.inr ⟨l', z, by simpa using h⟩
      rcases hl with rfl | ⟨l', z, rfl⟩
      · cases cs with
        | nil =>
          have : a ≠ b := by
            intro h
            exact (List.nodup_cons.mp hnd).1 (h ▸ List.mem_cons_self)
          simp [edgesOf, this]
        | cons c cs => exact absurd (hc c List.mem_cons_self) (by simp)
      · simp only [List.dropLast_concat] at hc
        have ha : a ∉ b :: (l' ++ [z]) := (List.nodup_cons.mp hnd).1
        have hb : b ∉ l' ++ [z] := (List.nodup_cons.mp (List.nodup_cons.mp hnd).2).1
        have hz : z ∉ l' := by
          have := (List.nodup_cons.mp (List.nodup_cons.mp hnd).2).2
          rw [List.nodup_append] at this
          intro h
          exact this.2.2 z h z (by simp) rfl
        have he : edgesOf (a :: b :: (l' ++ [z])) = (a, b) :: (pathE b (l' ++ [z]) ++ [(z, a)]) := by
          rw [edgesOf_cons]
          simp only [List.cons_append, List.append_assoc, pathE]
          rw [List.nil_append, pathE_append]
          simp [pathE]
        have hpn : (edgesOf (a :: b :: (l' ++ [z]))).Nodup := by
          rw [edgesOf_cons]
          apply pathE_nodup
          rw [List.dropLast_concat]
          exact hnd
        have hmem : ∀ e ∈ edgesOf (a :: b :: (l' ++ [z])), (e.1 = a → e.2 = b) ∧ (e.2 = a → e.1 = z) := by
          intro e hm
          rw [he] at hm
          rcases List.mem_cons.mp hm with rfl | hm
          · refine ⟨fun _ => rfl, fun h => absurd ?_ ha⟩
            simp only at h
            rw [← h]; exact List.mem_cons_self
          · rcases List.mem_append.mp hm with hm | hm
            · obtain ⟨h1, h2⟩ := pathE_mem hm
              constructor
              · intro h
                rw [h] at h1
                refine absurd ?_ ha
                rcases List.mem_cons.mp h1 with h1 | h1
                · rw [h1]; exact List.mem_cons_self
                · exact List.mem_cons_of_mem _ (mem_of_dropLast h1)
              · intro h
                rw [h] at h2
                exact absurd (List.mem_cons_of_mem _ h2) ha
            · rcases List.mem_singleton.mp hm with rfl
              refine ⟨fun h => absurd ?_ ha, fun _ => rfl⟩
              simp only at h
              rw [← h]; simp
        have hca : ∀ c ∈ cs, c ≠ a ∧ c ≠ b ∧ c ≠ z := by
          intro c h
          have := hc c h
          refine ⟨?_, ?_, ?_⟩
          · rintro rfl; exact ha (List.mem_cons_of_mem _ (List.mem_append_left _ this))
          · rintro rfl; exact hb (List.mem_append_left _ this)
          · rintro rfl; exact hz this
        rw [List.append_assoc, List.nodup_append]
        refine ⟨hpn, ?_, ?_⟩
        · rw [List.nodup_append]
          refine ⟨hcs.map fun x y h => (Prod.mk.inj h).1, hcs.map fun x y h => (Prod.mk.inj h).2, ?_⟩
          intro e he1 e' he2 heq
          subst heq
          obtain ⟨c, hc1, rfl⟩ := List.mem_map.mp he1
          obtain ⟨c', hc2, h⟩ := List.mem_map.mp he2
          exact (hca c hc1).1 (Prod.mk.inj h).1.symm
        · intro e he1 e' he2 heq
          subst heq
          rcases List.mem_append.mp he2 with h | h
          · obtain ⟨c, hc1, rfl⟩ := List.mem_map.mp h
            exact (hca c hc1).2.2 ((hmem _ he1).2 rfl)
          · obtain ⟨c, hc1, rfl⟩ := List.mem_map.mp h
            exact (hca c hc1).2.1 ((hmem _ he1).1 rfl)

/-- The first address that a list of cells does not use is not among them. -/
theorem cells_find (rest : List Cell) (x : List Nat) (h : ∀ c ∈ rest, c.1 ≠ 0) :
    (rest ++ [(0, x)]).find? (fun c => c.1 = 0) = some (0, x) ∧ nextCell (rest ++ [(0, x)]) 0 = none := by
  constructor
  · rw [List.find?_append, List.find?_eq_none.mpr (by simpa using h)]
    simp
  · unfold nextCell
    have : (rest ++ [(0, x)]).dropWhile (fun c => decide (c.1 ≠ 0)) = [(0, x)] := by
      rw [List.dropWhile_append_of_pos (by simpa using h)]
      simp
    rw [this]
    rfl

/-- What the limit of edges does to a list of faces: only the first face is split; the others come first and stay as they
are. -/
theorem limit_first (m : Nat) (hm : 3 ≤ m) (face : List Nat) (rest : List (List Nat)) (h3 : 3 ≤ face.length) :
    ∃ pieces last, (∀ fuel, face.length < fuel → limitFaces m fuel (face :: rest) = some (.ok (rest ++ pieces ++ [last]))) ∧
      3 ≤ last.length ∧ last.length ≤ m ∧ (∀ p ∈ pieces, p.length = m) ∧ CutAlong face (pieces ++ [last]) ∧
      (∀ v, v ∈ (pieces ++ [last]).flatten → v ∈ face) ∧
      pieces.length * (m - 2) + (last.length - 2) = face.length - 2 ∧
      (face.Nodup → ((pieces ++ [last]).flatMap edgesOf).Nodup) := by
  obtain ⟨pieces, last, q1, q2, q3, q4, q5, q6, q7, cs, r1, r2, r3⟩ :=
    splitLoop_spec m hm face.length face [] (Nat.le_refl _) h3
  refine ⟨pieces, last, ?_, q2, q3, q4, q5, q6, q7, fun hnd => r1.nodup_iff.mpr (cut_nodup hnd (r2 hnd) r3)⟩
  intro fuel hf
  obtain ⟨fuel, rfl⟩ : ∃ k, fuel = k + 1 := ⟨fuel - 1, by omega⟩
  unfold limitFaces
  rw [if_pos (by omega)]
  have hcells : (face :: rest).zipIdx.map (fun x => (x.2, x.1)) =
      ((0, face) :: (rest.zipIdx 1).map (fun x => (x.2, x.1)) : List Cell) := by
    rw [List.zipIdx_cons]; simp
  rw [hcells]
  set cs := (rest.zipIdx 1).map (fun x => (x.2, x.1)) with hcs
  have hcs0 : ∀ c ∈ cs, c.1 ≠ 0 := by
    intro c hc
    rw [hcs, List.mem_map] at hc
    obtain ⟨x, hx, rfl⟩ := hc
    have := List.le_snd_of_mem_zipIdx hx
    simp only
    omega
  set nw : List Cell := pieces.zipIdx.map (fun x => (((0, face) :: cs : List Cell).length + x.2, x.1)) with hnw
  have hnw0 : ∀ c ∈ nw, c.1 ≠ 0 := by
    intro c hc
    rw [hnw, List.mem_map] at hc
    obtain ⟨x, hx, rfl⟩ := hc
    simp
  have hsplit : splitInList m fuel 0 face ((0, face) :: cs) = some ((cs ++ nw) ++ [(0, last)]) := by
    unfold splitInList
    rw [q1 fuel (by omega)]
    simp only [List.nil_append, List.map_cons, if_true, List.cons_append, List.drop_succ_cons, List.drop_zero,
      List.take_succ_cons, List.take_zero]
    have : cs.map (fun c => if c.1 = 0 then (0, last) else c) = cs := by
      rw [List.map_congr_left (g := id)]
      · simp
      · intro c hc
        rw [if_neg (hcs0 c hc)]; rfl
    rw [this]
  have hfind := cells_find (cs ++ nw) last (by
    intro c hc
    rcases List.mem_append.mp hc with h | h
    · exact hcs0 c h
    · exact hnw0 c h)
  simp only [List.head?_cons, Option.map_some]
  unfold limitLoop
  simp only [List.find?_cons, decide_true]
  rw [if_neg (by omega), hsplit]
  simp only
  rw [hfind.1]
  simp only
  rw [if_neg (by omega), hfind.2]
  have hmap : (((cs ++ nw) ++ [(0, last)] : List Cell).map fun c => c.2) = rest ++ pieces ++ [last] := by
    have e1 : (cs.map fun c => c.2) = rest := by
      rw [hcs, List.map_map]
      exact List.zipIdx_map_fst 1 rest
    have e2 : (nw.map fun c => c.2) = pieces := by
      rw [hnw, List.map_map]
      exact List.zipIdx_map_fst 0 pieces
    simp [e1, e2]
  cases fuel <;> simp only [limitLoop, Option.map_some, Outcome.ok_bind, hmap]

/-- C58: a face that is alone is cut along chords into pieces that respect the limit, and no more pieces than needed:
all but the last have as many edges as permitted. Each edge of the face is in exactly one of the pieces: the edges of the
pieces are those of the face and chords, and when the vertices of the face are different, no edge occurs twice. -/
theorem split_limit (m : Nat) (hm : 3 ≤ m) (face : List Nat) (h3 : 3 ≤ face.length) :
    ∃ frags, (∀ fuel, face.length < fuel → limitFaces m fuel [face] = some (.ok frags)) ∧
      (∀ p ∈ frags, 3 ≤ p.length ∧ p.length ≤ m) ∧ CutAlong face frags ∧ SameRegion frags [face] ∧
      (face.Nodup → (frags.flatMap edgesOf).Nodup) ∧
      (∀ p ∈ frags.dropLast, p.length = m) ∧ triangles frags = face.length - 2 := by
  obtain ⟨pieces, last, q1, q2, q3, q4, q5, q6, q7, q8⟩ := limit_first m hm face [] h3
  refine ⟨pieces ++ [last], ?_, ?_, q5, ?_, q8, ?_, ?_⟩
  · intro fuel hf
    rw [q1 fuel hf]
    simp
  · intro p hp
    rcases List.mem_append.mp hp with hp | hp
    · have := q4 p hp; omega
    · rcases List.mem_singleton.mp hp with rfl
      omega
  · refine sameRegion_of_flows ?_ ?_
    · intro A _ φ hφ
      rw [cutAlong_flows q5 φ hφ, flows_single]
    · intro v hv
      simpa using q6 v hv
  · simpa using q4
  · unfold triangles
    have : ∀ ps : List (List Nat), (∀ p ∈ ps, p.length = m) → (ps.map fun p => p.length - 2).sum = ps.length * (m - 2) := by
      intro ps
      induction ps with
      | nil => simp
      | cons p ps ih =>
        intro h
        simp only [List.map_cons, List.sum_cons, List.length_cons]
        rw [ih fun q hq => h q (List.mem_cons_of_mem _ hq), h p List.mem_cons_self, Nat.add_mul]
        omega
    rw [List.map_append, List.sum_append, this pieces q4]
    simpa using q7

/-- C58 fails when there are several faces, as after triangulation: every face but the first keeps its edges, however
many there are. -/
theorem limit_not_applied (m : Nat) (hm : 3 ≤ m) (face big : List Nat) (h3 : 3 ≤ face.length) (rest : List (List Nat))
    (hbig : big ∈ rest) :
    ∃ frags, (∀ fuel, face.length < fuel → limitFaces m fuel (face :: rest) = some (.ok frags)) ∧ big ∈ frags := by
  obtain ⟨pieces, last, q1, -⟩ := limit_first m hm face rest h3
  exact ⟨_, q1, by simp [hbig]⟩

example : limitFaces 4 20 [[0, 1, 2, 3, 4, 5, 6, 7]] = some (.ok [[0, 1, 2, 3], [0, 3, 4, 5], [0, 5, 6, 7]]) := by
  decide +kernel

example : limitFaces 3 20 [[0, 1, 2, 3, 4], [0, 4, 5, 6]] = some (.ok [[0, 4, 5, 6], [0, 1, 2], [0, 2, 3], [0, 3, 4]]) := by
  decide +kernel

end Verif.Faces
