import Verif.SurfLights.SubdivideProps
import Mathlib.Algebra.Order.Ring.Rat
import Mathlib.Data.Rat.Floor

/-!
Which surface lights are made (C193).
-/

namespace Verif.SurfLights

open Verif.Geom

variable {K : Type} [Field K] [LinearOrder K] [FloorRing K]

/-- Which templates are taken for a face. -/
theorem template_fits (same : String → String → Bool) (dflt type : Int) (f : Face K) (t : Template K) :
    fits same dflt type f t = true ↔ MeantFor same dflt type f t := by
  unfold fits MeantFor
  cases t.radiosity with
  | none =>
    simp only [Option.getD_none]
    by_cases h1 : dflt = type
    · by_cases h2 : f.group = 0 <;> by_cases h3 : t.group = 0 <;> by_cases h4 : t.group = f.group <;> simp_all
    · simp [h1]
  | some r =>
    simp only [Option.getD_some]
    by_cases h1 : r = type
    · by_cases h2 : f.group = 0 <;> by_cases h3 : t.group = 0 <;> by_cases h4 : t.group = f.group <;> simp_all
    · simp [h1]

theorem underwater_iff (q2 : Bool) (l : Leaf) : underwater q2 l = true ↔ Wet q2 l := by
  unfold underwater Wet
  cases q2 with
  | false => simp
  | true =>
    simp only [if_true]
    generalize BitVec.ofInt 32 l.contents = c
    rw [bne_iff_ne, ne_eq]
    constructor
    · intro h
      by_contra hn
      push Not at hn
      apply h
      apply BitVec.eq_of_getLsbD_eq
      intro i hi
      simp only [BitVec.getLsbD_and, BitVec.getLsbD_zero]
      by_cases h3 : i = 3
      · subst h3; rw [Bool.eq_false_of_not_eq_true hn.1, Bool.false_and]
      by_cases h4 : i = 4
      · subst h4; rw [Bool.eq_false_of_not_eq_true hn.2.1, Bool.false_and]
      by_cases h5 : i = 5
      · subst h5; rw [Bool.eq_false_of_not_eq_true hn.2.2, Bool.false_and]
      have : (56#32).getLsbD i = false := by
        have : ∀ i : Fin 32, i.val ≠ 3 → i.val ≠ 4 → i.val ≠ 5 → (56#32).getLsbD i.val = false := by decide
        exact this ⟨i, hi⟩ h3 h4 h5
      rw [this, Bool.and_false]
    · intro h h0
      have hb : ∀ i, (c &&& 56#32).getLsbD i = false := by
        intro i
        rw [h0]
        exact BitVec.getLsbD_zero
      have h3 := hb 3
      have h4 := hb 4
      have h5 := hb 5
      simp only [BitVec.getLsbD_and] at h3 h4 h5
      have e3 : (56#32).getLsbD 3 = true := rfl
      have e4 : (56#32).getLsbD 4 = true := rfl
      have e5 : (56#32).getLsbD 5 = true := rfl
      rw [e3, Bool.and_true] at h3
      rw [e4, Bool.and_true] at h4
      rw [e5, Bool.and_true] at h5
      rcases h with h | h | h
      · rw [h3] at h; cases h
      · rw [h4] at h; cases h
      · rw [h5] at h; cases h

theorem create_eq (centroid : List (Vec K) → Option (Vec K)) (k : Nat) (f : Face K) (model : Vec K) (t : Template K)
    (p : List (Vec K)) : create centroid k f model t p = (centroid p).toList.map (lightAt k f model t) := by
  unfold create lightAt
  cases centroid p with
  | none => rfl
  | some c =>
    simp only [Option.toList_some, List.map_cons, List.map_nil, List.cons.injEq, and_true, Made.mk.injEq, true_and]
    by_cases h : t.spot = 0 <;> simp [h]

theorem lightFace_face (s : Setup K) (k : Nat) (f : Face K) (model : Vec K) (ms : List (Made K))
    (h : lightFace s k f model = some (.ok ms)) : ∀ m ∈ ms, m.face = k := by
  unfold lightFace at h
  simp only at h
  split at h
  · cases h
    intro m hm
    cases hm
  · split at h
    · cases h
    · cases h
    · cases h
    · cases h
      intro m hm
      obtain ⟨p, -, hm⟩ := List.mem_flatMap.1 hm
      obtain ⟨t, -, hm⟩ := List.mem_flatMap.1 hm
      rw [create_eq] at hm
      obtain ⟨c, -, rfl⟩ := List.mem_map.1 hm
      rfl

/-- After some faces have been visited. -/
structure Inv (s : Setup K) (seen : List Nat) (acc : List (Made K)) : Prop where
  made : ∀ k ∈ seen, ∃ f model ms, s.faces[k]? = some f ∧ f.model = some model ∧ lightFace s k f model = some (.ok ms) ∧
    acc.filter (fun m => m.face = k) = ms
  none : ∀ k, k ∉ seen → acc.filter (fun m => m.face = k) = []

theorem lightFaces_ok (s : Setup K) (wet : Bool) (ks seen seen' : List Nat) (acc acc' : List (Made K))
    (hi : Inv s seen acc) (h : lightFaces s wet ks seen acc = some (.ok (seen', acc'))) :
    Inv s seen' acc' ∧ ∀ k, k ∈ seen' ↔ k ∈ seen ∨ (k ∈ ks ∧ ∃ f model, s.faces[k]? = some f ∧ f.model = some model ∧
      (wet && f.translucent) = false) := by
  induction ks generalizing seen acc with
  | nil =>
    cases h
    exact ⟨hi, fun k => by simp⟩
  | cons j ks ih =>
    unfold lightFaces at h
    cases hf : s.faces[j]? with
    | none => rw [hf] at h; cases h
    | some f =>
      rw [hf] at h
      simp only at h
      have skip : (¬ ∃ f model, s.faces[j]? = some f ∧ f.model = some model ∧ (wet && f.translucent) = false) ∨ j ∈ seen →
          lightFaces s wet ks seen acc = some (.ok (seen', acc')) →
          Inv s seen' acc' ∧ ∀ k, k ∈ seen' ↔ k ∈ seen ∨ (k ∈ j :: ks ∧ ∃ f model, s.faces[k]? = some f ∧
            f.model = some model ∧ (wet && f.translucent) = false) := by
        intro hj h
        obtain ⟨h1, h2⟩ := ih seen acc hi h
        refine ⟨h1, fun k => ?_⟩
        rw [h2 k, List.mem_cons]
        constructor
        · rintro (h | ⟨h, h'⟩)
          · exact Or.inl h
          · exact Or.inr ⟨Or.inr h, h'⟩
        · rintro (h | ⟨h | h, h'⟩)
          · exact Or.inl h
          · subst h
            rcases hj with hj | hj
            · exact absurd h' hj
            · exact Or.inl hj
          · exact Or.inr ⟨h, h'⟩
      cases hm : f.model with
      | none =>
        rw [hm] at h
        refine skip (Or.inl ?_) h
        rintro ⟨f', model, h1, h2, -⟩
        rw [hf] at h1
        cases h1
        rw [hm] at h2
        cases h2
      | some model =>
        rw [hm] at h
        simp only at h
        by_cases hw : (wet && f.translucent) = true
        · rw [if_pos hw] at h
          refine skip (Or.inl ?_) h
          rintro ⟨f', model, h1, -, h2⟩
          rw [hf] at h1
          cases h1
          rw [hw] at h2
          cases h2
        · rw [if_neg hw] at h
          by_cases hs : seen.contains j = true
          · rw [if_pos hs] at h
            exact skip (Or.inr (by simpa using hs)) h
          · rw [if_neg hs] at h
            have hs : j ∉ seen := by simpa using hs
            split at h
            · cases h
            · cases h
            · cases h
            · next ms hms =>
              have hface := lightFace_face s j f model ms hms
              have hi' : Inv s (seen ++ [j]) (acc ++ ms) := by
                constructor
                · intro k hk
                  rcases List.mem_append.1 hk with hk | hk
                  · obtain ⟨f', model', ms', a, b, c, d⟩ := hi.made k hk
                    refine ⟨f', model', ms', a, b, c, ?_⟩
                    rw [List.filter_append, d]
                    have : ms.filter (fun m => m.face = k) = [] := by
                      rw [List.filter_eq_nil_iff]
                      intro m hm' he
                      have he : m.face = k := by simpa using he
                      rw [hface m hm'] at he
                      subst he
                      exact hs hk
                    rw [this, List.append_nil]
                  · rw [List.mem_singleton] at hk
                    subst hk
                    refine ⟨f, model, ms, hf, hm, hms, ?_⟩
                    rw [List.filter_append, hi.none k hs, List.nil_append, List.filter_eq_self]
                    intro m hm'
                    simpa using hface m hm'
                · intro k hk
                  rw [List.mem_append, not_or, List.mem_singleton] at hk
                  rw [List.filter_append, hi.none k hk.1, List.nil_append, List.filter_eq_nil_iff]
                  intro m hm' he
                  have he : m.face = k := by simpa using he
                  rw [hface m hm'] at he
                  exact hk.2 he.symm
              obtain ⟨h1, h2⟩ := ih (seen ++ [j]) (acc ++ ms) hi' h
              refine ⟨h1, fun k => ?_⟩
              rw [h2 k, List.mem_append, List.mem_singleton, List.mem_cons]
              constructor
              · rintro ((h | h) | ⟨h, h'⟩)
                · exact Or.inl h
                · subst h
                  exact Or.inr ⟨Or.inl rfl, f, model, hf, hm, by simpa using hw⟩
                · exact Or.inr ⟨Or.inr h, h'⟩
              · rintro (h | ⟨h | h, h'⟩)
                · exact Or.inl (Or.inl h)
                · exact Or.inl (Or.inr h)
                · exact Or.inr ⟨h, h'⟩

theorem lightLeafs_ok (s : Setup K) (q2 : Bool) (ls : List Leaf) (seen : List Nat) (acc acc' : List (Made K))
    (hi : Inv s seen acc) (h : lightLeafs s q2 ls seen acc = some (.ok acc')) :
    ∃ seen', Inv s seen' acc' ∧ ∀ k, k ∈ seen' ↔ k ∈ seen ∨ ∃ l ∈ ls, k ∈ l.faces ∧ ∃ f model, s.faces[k]? = some f ∧
      f.model = some model ∧ (underwater q2 l && f.translucent) = false := by
  induction ls generalizing seen acc with
  | nil =>
    cases h
    exact ⟨seen, hi, fun k => by simp⟩
  | cons l ls ih =>
    unfold lightLeafs at h
    split at h
    · cases h
    · cases h
    · cases h
    · next seen1 acc1 h1 =>
      obtain ⟨i1, m1⟩ := lightFaces_ok s _ _ seen seen1 acc acc1 hi h1
      obtain ⟨seen', i2, m2⟩ := ih seen1 acc1 i1 h
      refine ⟨seen', i2, fun k => ?_⟩
      rw [m2 k, m1 k]
      constructor
      · rintro ((h | h) | ⟨l', hl', h⟩)
        · exact Or.inl h
        · exact Or.inr ⟨l, List.mem_cons_self, h⟩
        · exact Or.inr ⟨l', List.mem_cons_of_mem _ hl', h⟩
      · rintro (h | ⟨l', hl', h⟩)
        · exact Or.inl (Or.inl h)
        · rcases List.mem_cons.1 hl' with rfl | hl'
          · exact Or.inl (Or.inr h)
          · exact Or.inr ⟨l', hl', h⟩

theorem seen_iff (q2 : Bool) (leafs : List Leaf) (k : Nat) (f : Face K) :
    (∃ l ∈ leafs, k ∈ l.faces ∧ (underwater q2 l && f.translucent) = false) ↔ Seen q2 leafs k f := by
  unfold Seen
  have : ∀ l, (underwater q2 l && f.translucent) = false ↔ ¬ (Wet q2 l ∧ f.translucent = true) := by
    intro l
    rw [← underwater_iff, ← Bool.and_eq_true]
    simp
  simp only [this]

/-- A face with a model that is seen gets its lights, and gets them once: on every piece the lights of the templates meant
for it. -/
theorem face_lit_once (s : Setup K) (q2 : Bool) (leafs : List Leaf) (ms : List (Made K))
    (h : makeSurfaceLights s q2 leafs = some (.ok ms)) (k : Nat) (f : Face K) (model : Vec K)
    (hf : s.faces[k]? = some f) (hm : f.model = some model) (hs : Seen q2 leafs k f) :
    ∃ ts, ts.Sublist s.templates ∧ (∀ t, t ∈ ts ↔ t ∈ s.templates ∧ MeantFor s.same s.dflt 0 f t) ∧
      ((ts = [] ∧ ms.filter (fun m => m.face = k) = []) ∨
        ∃ pieces, subdivideSurface s.size s.fuel f.verts = some (.ok pieces) ∧
          ms.filter (fun m => m.face = k) =
            pieces.flatMap fun p => ts.flatMap fun t => (s.centroid p).toList.map (lightAt k f model t)) := by
  refine ⟨s.templates.filter fun t => fits s.same s.dflt 0 f t, List.filter_sublist, ?_, ?_⟩
  · intro t
    rw [List.mem_filter, template_fits]
  · unfold makeSurfaceLights at h
    by_cases he : s.templates.isEmpty = true
    · rw [if_pos he] at h
      cases h
      left
      rw [List.isEmpty_iff] at he
      rw [he]
      exact ⟨rfl, rfl⟩
    · rw [if_neg he] at h
      obtain ⟨seen', i, hi⟩ := lightLeafs_ok s q2 leafs [] [] ms ⟨fun k hk => (by cases hk), fun k _ => rfl⟩ h
      have hk : k ∈ seen' := by
        rw [hi k]
        obtain ⟨l, hl, hkl, hw⟩ := (seen_iff q2 leafs k f).2 hs
        exact Or.inr ⟨l, hl, hkl, f, model, hf, hm, hw⟩
      obtain ⟨f', model', ms', a, b, c, d⟩ := i.made k hk
      rw [hf] at a
      cases a
      rw [hm] at b
      cases b
      unfold lightFace at c
      simp only at c
      split at c
      · next hts =>
        cases c
        left
        rw [List.isEmpty_iff] at hts
        exact ⟨hts, d⟩
      · right
        split at c
        · cases c
        · cases c
        · cases c
        · next pieces hp =>
          cases c
          refine ⟨pieces, hp, ?_⟩
          rw [d]
          simp only [create_eq]

/-- Other faces get none. -/
theorem face_not_lit (s : Setup K) (q2 : Bool) (leafs : List Leaf) (ms : List (Made K))
    (h : makeSurfaceLights s q2 leafs = some (.ok ms)) (m : Made K) (hm : m ∈ ms) :
    ∃ f, s.faces[m.face]? = some f ∧ f.model.isSome = true ∧ Seen q2 leafs m.face f := by
  unfold makeSurfaceLights at h
  by_cases he : s.templates.isEmpty = true
  · rw [if_pos he] at h
    cases h
    cases hm
  · rw [if_neg he] at h
    obtain ⟨seen', i, hi⟩ := lightLeafs_ok s q2 leafs [] [] ms ⟨fun k hk => (by cases hk), fun k _ => rfl⟩ h
    by_cases hk : m.face ∈ seen'
    · rcases (hi m.face).1 hk with h0 | ⟨l, hl, hkl, f, model, hf, hmo, hw⟩
      · cases h0
      · exact ⟨f, hf, by rw [hmo]; rfl, (seen_iff q2 leafs m.face f).1 ⟨l, hl, hkl, hw⟩⟩
    · have := i.none m.face hk
      rw [List.filter_eq_nil_iff] at this
      exact absurd (by simp) (this m hm)

/-- A light with `_surface` becomes a template with its own light, and shines no more itself; other lights stay. -/
theorem lamps_to_templates (rad : List (Template K)) (lamps : List (Lamp K)) :
    (∀ t ∈ rad, t ∈ templates rad lamps) ∧
    (∀ l ∈ lamps, l.surface ≠ "" → { l.asTemplate with light := l.light } ∈ templates rad lamps) ∧
    (templates rad lamps).length = rad.length + (lamps.filter fun l => l.surface ≠ "").length ∧
    (dimmed lamps).length = lamps.length ∧
    ∀ (i : Nat) (l : Lamp K), lamps[i]? = some l →
      (l.surface ≠ "" → (dimmed lamps)[i]? = some { l with light := 0 }) ∧
      (l.surface = "" → (dimmed lamps)[i]? = some l) := by
  refine ⟨fun t ht => List.mem_append_left _ ht, ?_, ?_, ?_, ?_⟩
  · intro l hl hs
    refine List.mem_append_right _ (List.mem_map.2 ⟨l, List.mem_filter.2 ⟨hl, by simpa using hs⟩, rfl⟩)
  · unfold templates
    rw [List.length_append, List.length_map]
    congr 2
    apply List.filter_congr
    intro l _
    by_cases h : l.surface = "" <;> simp [h]
  · simp [dimmed]
  · intro i l hl
    unfold dimmed
    rw [List.getElem?_map, hl]
    constructor
    · intro h
      simp [h]
    · intro h
      simp [h]

/-! ## A case -/

/-- A square of 20 by 20 in the plane z = 0, in two leafs, and a template for it. -/
def square : Face ℚ := ⟨"lava", 0, [⟨0, 0, 0⟩, ⟨10, 0, 0⟩, ⟨10, 10, 0⟩, ⟨0, 10, 0⟩], ⟨0, 0, 1⟩, some ⟨0, 0, 0⟩, true⟩
def lava : Template ℚ := ⟨none, 0, "lava", 0, 0, 300⟩
def plain : Setup ℚ := ⟨[square], [lava], (· == ·), 0, fun _ => some ⟨5, 5, 0⟩, 128, 5⟩

/-- Non-vacuity of `face_lit_once`: the square is listed by three leafs, one of them under lava, and gets one light. -/
example : makeSurfaceLights plain false [⟨-5, [0]⟩, ⟨-1, [0]⟩, ⟨-1, [0]⟩] = some (.ok [⟨0, ⟨5, 5, 2⟩, none, 300⟩]) ∧
    Seen false [⟨-5, [0]⟩, ⟨-1, [0]⟩, ⟨-1, [0]⟩] 0 square := by
  constructor
  · have hw : Within (16 : ℚ) square.verts := by
      intro a ha b hb
      simp only [square, List.mem_cons, List.not_mem_nil, or_false] at ha hb
      rcases ha with rfl | rfl | rfl | rfl <;> rcases hb with rfl | rfl | rfl | rfl <;> norm_num
    have hs : subdivideSurface (128 : ℚ) 5 square.verts = some (.ok [square.verts]) :=
      small_face_kept 128 4 square.verts (by decide) hw
    have hl : lightFace plain 0 square ⟨0, 0, 0⟩ = some (.ok [⟨0, ⟨5, 5, 2⟩, none, 300⟩]) := by
      unfold lightFace
      simp only
      have ht : plain.templates.filter (fun t => fits plain.same plain.dflt 0 square t) = [lava] := by
        simp [plain, fits, lava, square]
      rw [ht, if_neg (by simp), show plain.size = 128 from rfl, show plain.fuel = 5 from rfl, hs]
      simp [create, plain, lava, square]
    have h1 : lightFaces plain true [0] [] [] = some (.ok ([], [])) := by
      simp [lightFaces, plain, square]
    have h2 : lightFaces plain false [0] [] [] = some (.ok ([0], [⟨0, ⟨5, 5, 2⟩, none, 300⟩])) := by
      unfold lightFaces
      rw [show plain.faces[0]? = some square from rfl]
      simp only [show square.model = some ⟨0, 0, 0⟩ from rfl]
      rw [hl]
      simp [lightFaces]
    have h3 : lightFaces plain false [0] [0] [⟨0, ⟨5, 5, 2⟩, none, 300⟩] = some (.ok ([0], [⟨0, ⟨5, 5, 2⟩, none, 300⟩])) := by
      simp [lightFaces, plain, square]
    unfold makeSurfaceLights
    rw [if_neg (by simp [plain])]
    have u1 : underwater false ⟨-5, [0]⟩ = true := by decide
    have u2 : underwater false ⟨-1, [0]⟩ = false := by decide
    simp only [lightLeafs, u1, u2, h1, h2, h3]
  · exact ⟨⟨-1, [0]⟩, by simp, by simp, fun h => h.1 rfl⟩

/-- Non-vacuity of `pieces_small` and `pieces_area`: a strip is cut in two. -/
example : subdivide (32 : ℚ) 3 [⟨0, 0, 0⟩, ⟨64, 0, 0⟩, ⟨64, 8, 0⟩, ⟨0, 8, 0⟩]
    = some (.ok [[⟨32, 0, 0⟩, ⟨64, 0, 0⟩, ⟨64, 8, 0⟩, ⟨32, 8, 0⟩], [⟨0, 0, 0⟩, ⟨32, 0, 0⟩, ⟨32, 8, 0⟩, ⟨0, 8, 0⟩]]) := by
  decide +kernel

example : Planar (⟨0, 0, 1⟩ : Vec ℚ) 0 [⟨0, 0, 0⟩, ⟨64, 0, 0⟩, ⟨64, 8, 0⟩, ⟨0, 8, 0⟩] := by
  intro v hv
  simp only [List.mem_cons, List.not_mem_nil, or_false] at hv
  rcases hv with rfl | rfl | rfl | rfl <;> norm_num [dot]

/-- Non-vacuity of `full_face_overflows`: there is such a face. -/
example : ∃ vs : List (Vec ℚ), vs.length = 64 ∧ ¬ Within (128 + 16) vs := by
  refine ⟨(List.range 64).map fun i : Nat => ⟨(i : ℚ) * 10, (i : ℚ) * i, 0⟩, by simp, ?_⟩
  intro h
  have := (h ⟨630, 3969, 0⟩ (List.mem_map.2 ⟨63, by simp, by norm_num⟩) ⟨0, 0, 0⟩
    (List.mem_map.2 ⟨0, by simp, by norm_num⟩)).1
  norm_num at this

end Verif.SurfLights
