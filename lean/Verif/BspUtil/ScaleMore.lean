import Verif.BspUtil.ScaleLemmas
import Verif.EntData.DictProps
import Mathlib.Algebra.Order.Floor.Ring
import Mathlib.Data.Rat.Floor

/-! C205: what else `bsputil --scale` changes: corners, bounds, textures, the light grid and entities. -/

namespace Verif.BspUtil.Scale

open Geom Tree Decompile Spec

set_option linter.unusedSectionVars false

variable {K : Type} [Field K] [LinearOrder K] [IsStrictOrderedRing K]

/-! ### Textures -/

theorem row_coord {s : Vec K} (hs : Factors s) (r : Vec K × K) (p : Vec K) : coord (scaleRow s r) (image s p) = coord r p := by
  obtain ⟨hx, hy, hz⟩ := hs
  simp only [coord, scaleRow, image, dot]
  field_simp

/-- **C205 (textures).** The image of a point has in the scaled map the texture coordinates that the point had; so nothing on a face is moved. -/
theorem scale_textures (env : Env K) {s : Vec K} (hs : Factors s) (m : Map K) {k : Nat} {t : (Vec K × K) × (Vec K × K)} (ht : m.texinfos[k]? = some t) :
    ∃ t', (scale env s m).texinfos[k]? = some t' ∧
      ∀ p, coord t'.1 (image s p) = coord t.1 p ∧ coord t'.2 (image s p) = coord t.2 p :=
  ⟨(scaleRow s t.1, scaleRow s t.2), by simp only [scale, List.getElem?_map, ht, Option.map_some], fun p => ⟨row_coord hs _ p, row_coord hs _ p⟩⟩

/-- **C205 (textures).** The same for the coordinates in lightmaps that have coordinates of their own. -/
theorem scale_decoupled (env : Env K) {s : Vec K} (hs : Factors s) (m : Map K) {l : List ((Vec K × K) × (Vec K × K))} (hl : m.decoupled = some l)
    {k : Nat} {t : (Vec K × K) × (Vec K × K)} (ht : l[k]? = some t) :
    ∃ l' t', (scale env s m).decoupled = some l' ∧ l'[k]? = some t' ∧
      ∀ p, coord t'.1 (image s p) = coord t.1 p ∧ coord t'.2 (image s p) = coord t.2 p :=
  ⟨l.map fun t => (scaleRow s t.1, scaleRow s t.2), (scaleRow s t.1, scaleRow s t.2), by simp only [scale, hl, Option.map_some],
    by simp only [List.getElem?_map, ht, Option.map_some], fun p => ⟨row_coord hs _ p, row_coord hs _ p⟩⟩

/-! ### Bounds -/

theorem between {a b s x : K} (h1 : a ≤ x) (h2 : x ≤ b) : min (a * s) (b * s) ≤ x * s ∧ x * s ≤ max (a * s) (b * s) := by
  rcases le_total 0 s with h | h
  · exact ⟨min_le_iff.2 (Or.inl (mul_le_mul_of_nonneg_right h1 h)), le_max_iff.2 (Or.inr (mul_le_mul_of_nonneg_right h2 h))⟩
  · exact ⟨min_le_iff.2 (Or.inr (mul_le_mul_of_nonpos_right h2 h)), le_max_iff.2 (Or.inl (mul_le_mul_of_nonpos_right h1 h))⟩

theorem between_inv {a b s y : K} (hs : s ≠ 0) (hab : a ≤ b) (h1 : min (a * s) (b * s) ≤ y) (h2 : y ≤ max (a * s) (b * s)) :
    a ≤ y / s ∧ y / s ≤ b := by
  rcases lt_or_gt_of_ne hs with h | h
  · rw [min_eq_right (mul_le_mul_of_nonpos_right hab h.le)] at h1
    rw [max_eq_left (mul_le_mul_of_nonpos_right hab h.le)] at h2
    exact ⟨(le_div_iff_of_neg h).2 h2, (div_le_iff_of_neg h).2 h1⟩
  · rw [min_eq_left (mul_le_mul_of_nonneg_right hab h.le)] at h1
    rw [max_eq_right (mul_le_mul_of_nonneg_right hab h.le)] at h2
    exact ⟨(le_div_iff₀ h).2 h1, (div_le_iff₀ h).2 h2⟩

theorem box_image {s p : Vec K} {b : Box K} (h : InBox b p) : InBox (scaleBox s b) (image s p) := by
  obtain ⟨h1, h2, h3, h4, h5, h6⟩ := h
  have hx := between (s := s.x) h1 h2
  have hy := between (s := s.y) h3 h4
  have hz := between (s := s.z) h5 h6
  exact ⟨hx.1, hx.2, hy.1, hy.2, hz.1, hz.2⟩

/-- **C205 (bounds).** The bounds of a model become exactly the image of the old ones. -/
theorem scale_model_bounds (env : Env K) {s : Vec K} (hs : Factors s) (m : Map K) {k : Nat} {x : SModel K} (hx : m.models[k]? = some x)
    (hb : x.box.mins.x ≤ x.box.maxs.x ∧ x.box.mins.y ≤ x.box.maxs.y ∧ x.box.mins.z ≤ x.box.maxs.z) :
    ∃ x', (scale env s m).models[k]? = some x' ∧ x'.origin = image s x.origin ∧
      ∀ q, InBox x'.box q ↔ ∃ p, InBox x.box p ∧ q = image s p := by
  refine ⟨⟨image s x.origin, scaleBox s x.box⟩, by simp [scale, hx, smul_eq], rfl, ?_⟩
  intro q
  constructor
  · rintro ⟨h1, h2, h3, h4, h5, h6⟩
    obtain ⟨a1, a2⟩ := between_inv hs.1 hb.1 h1 h2
    obtain ⟨b1, b2⟩ := between_inv hs.2.1 hb.2.1 h3 h4
    obtain ⟨c1, c2⟩ := between_inv hs.2.2 hb.2.2 h5 h6
    refine ⟨⟨q.x / s.x, q.y / s.y, q.z / s.z⟩, ⟨a1, a2, b1, b2, c1, c2⟩, ?_⟩
    simp only [image, div_mul_cancel₀ _ hs.1, div_mul_cancel₀ _ hs.2.1, div_mul_cancel₀ _ hs.2.2]
  · rintro ⟨p, hp, rfl⟩
    exact box_image hp

/-- What `floor` and `ceil` do. -/
structure Spec.Rounds (floor ceil : K → K) : Prop where
  floor_le : ∀ x, floor x ≤ x
  floor_int : ∀ x, ∃ n : ℤ, floor x = (n : K)
  floor_max : ∀ (x : K) (n : ℤ), (n : K) ≤ x → (n : K) ≤ floor x
  le_ceil : ∀ x, x ≤ ceil x
  ceil_int : ∀ x, ∃ n : ℤ, ceil x = (n : K)
  ceil_min : ∀ (x : K) (n : ℤ), x ≤ (n : K) → ceil x ≤ (n : K)

/-- The functions of the library do that. -/
example : Rounds (fun x : ℚ => (⌊x⌋ : ℚ)) (fun x => (⌈x⌉ : ℚ)) where
  floor_le := Int.floor_le
  floor_int x := ⟨⌊x⌋, rfl⟩
  floor_max _ _ h := by exact_mod_cast Int.le_floor.2 h
  le_ceil := Int.le_ceil
  ceil_int x := ⟨⌈x⌉, rfl⟩
  ceil_min _ _ h := by exact_mod_cast Int.ceil_le.2 h

theorem intBox {floor ceil : K → K} (hr : Rounds floor ceil) {s : Vec K} (b : Box K)
    (hb : b.mins.x ≤ b.maxs.x ∧ b.mins.y ≤ b.maxs.y ∧ b.mins.z ≤ b.maxs.z) :
    (∀ p, InBox b p → InBox (scaleIntBox floor ceil s b) (image s p)) ∧
      ∀ lo hi : Vec ℤ, (∀ p, InBox b p → InBox (wholeBox lo hi) (image s p)) →
        ∀ q, InBox (scaleIntBox floor ceil s b) q → InBox (wholeBox lo hi) q := by
  constructor
  · intro p hp
    obtain ⟨h1, h2, h3, h4, h5, h6⟩ := box_image (s := s) hp
    exact ⟨le_trans (hr.floor_le _) h1, le_trans h2 (hr.le_ceil _), le_trans (hr.floor_le _) h3, le_trans h4 (hr.le_ceil _),
      le_trans (hr.floor_le _) h5, le_trans h6 (hr.le_ceil _)⟩
  · intro lo hi hall q hq
    obtain ⟨h1, h2, h3, h4, h5, h6⟩ := hq
    obtain ⟨a1, a2, a3, a4, a5, a6⟩ := hall b.mins ⟨le_refl _, hb.1, le_refl _, hb.2.1, le_refl _, hb.2.2⟩
    obtain ⟨b1, b2, b3, b4, b5, b6⟩ := hall b.maxs ⟨hb.1, le_refl _, hb.2.1, le_refl _, hb.2.2, le_refl _⟩
    exact ⟨le_trans (hr.floor_max _ _ (le_min a1 b1)) h1, le_trans h2 (hr.ceil_min _ _ (max_le a2 b2)),
      le_trans (hr.floor_max _ _ (le_min a3 b3)) h3, le_trans h4 (hr.ceil_min _ _ (max_le a4 b4)),
      le_trans (hr.floor_max _ _ (le_min a5 b5)) h5, le_trans h6 (hr.ceil_min _ _ (max_le a6 b6))⟩

/-- **C205 (bounds).** The bounds of a leaf are whole numbers, hold the image of the old bounds, and are the least such. -/
theorem scale_leaf_bounds {env : Env K} (hr : Rounds env.floor env.ceil) (s : Vec K) (m : Map K) {k : Nat} {x : DLeaf × Box K}
    (hx : m.leafs[k]? = some x) (hb : x.2.mins.x ≤ x.2.maxs.x ∧ x.2.mins.y ≤ x.2.maxs.y ∧ x.2.mins.z ≤ x.2.maxs.z) :
    ∃ x', (scale env s m).leafs[k]? = some x' ∧ x'.1 = x.1 ∧
      (∃ lo hi : Vec ℤ, x'.2 = wholeBox lo hi) ∧
      (∀ p, InBox x.2 p → InBox x'.2 (image s p)) ∧
      ∀ lo hi : Vec ℤ, (∀ p, InBox x.2 p → InBox (wholeBox lo hi) (image s p)) →
        ∀ q, InBox x'.2 q → InBox (wholeBox lo hi) q := by
  refine ⟨(x.1, scaleIntBox env.floor env.ceil s x.2), by simp [scale, hx], rfl, ?_, intBox hr x.2 hb⟩
  obtain ⟨a, ha⟩ := hr.floor_int (scaleBox s x.2).mins.x
  obtain ⟨b, hb⟩ := hr.floor_int (scaleBox s x.2).mins.y
  obtain ⟨c, hc⟩ := hr.floor_int (scaleBox s x.2).mins.z
  obtain ⟨d, hd⟩ := hr.ceil_int (scaleBox s x.2).maxs.x
  obtain ⟨e, he⟩ := hr.ceil_int (scaleBox s x.2).maxs.y
  obtain ⟨f, hf⟩ := hr.ceil_int (scaleBox s x.2).maxs.z
  exact ⟨⟨a, b, c⟩, ⟨d, e, f⟩, by simp only [scaleIntBox, wholeBox, ha, hb, hc, hd, he, hf]⟩

/-- **C205 (bounds).** The same for a node. -/
theorem scale_node_bounds {env : Env K} (hr : Rounds env.floor env.ceil) (s : Vec K) (m : Map K) {k : Nat} {x : DNode × Box K}
    (hx : m.nodes[k]? = some x) (hb : x.2.mins.x ≤ x.2.maxs.x ∧ x.2.mins.y ≤ x.2.maxs.y ∧ x.2.mins.z ≤ x.2.maxs.z) :
    ∃ x', (scale env s m).nodes[k]? = some x' ∧
      (∀ p, InBox x.2 p → InBox x'.2 (image s p)) ∧
      ∀ lo hi : Vec ℤ, (∀ p, InBox x.2 p → InBox (wholeBox lo hi) (image s p)) →
        ∀ q, InBox x'.2 q → InBox (wholeBox lo hi) q :=
  ⟨(scaleNode (addAll env.epsN env.epsD env.pick [] (m.planes.map (scaledPlane env.len s))).1 x.1, scaleIntBox env.floor env.ceil s x.2),
    by simp only [scale, List.getElem?_map, hx, Option.map_some], intBox hr x.2 hb⟩

/-! ### Corners -/

theorem reversePart_at (l : List Int) {first num : Nat} (h : first + num ≤ l.length) (i : Nat) :
    (reversePart l first num)[i]? = if first ≤ i ∧ i < first + num then l[first + (first + num - 1 - i)]? else l[i]? := by
  unfold reversePart
  have e1 : (l.take first).length = first := by simp; omega
  have e2 : ((l.drop first).take num).reverse.length = num := by simp; omega
  by_cases h1 : i < first
  · rw [if_neg (by omega), List.append_assoc, List.getElem?_append_left (by omega), List.getElem?_take_of_lt h1]
  · by_cases h2 : i < first + num
    · rw [if_pos ⟨by omega, h2⟩, List.getElem?_append_left (by rw [List.length_append]; omega), List.getElem?_append_right (by omega), e1,
        List.getElem?_reverse (by simp; omega), List.getElem?_take_of_lt (by simp; omega), List.getElem?_drop]
      congr 1
      simp only [List.length_take, List.length_drop]
      omega
    · rw [if_neg (by omega), List.getElem?_append_right (by rw [List.length_append]; omega), List.getElem?_drop]
      congr 1
      rw [List.length_append, e1, e2]
      omega

theorem reversePart_length (l : List Int) {first num : Nat} (h : first + num ≤ l.length) : (reversePart l first num).length = l.length := by
  simp only [reversePart, List.length_append, List.length_reverse, List.length_take, List.length_drop]; omega

theorem reverseAll_outside : ∀ (faces : List SFace) (l : List Int), (∀ f ∈ faces, f.first + f.num ≤ l.length) → ∀ i,
    (∀ f ∈ faces, ¬ (f.first ≤ i ∧ i < f.first + f.num)) → (reverseAll faces l)[i]? = l[i]?
  | [], _, _, _, _ => rfl
  | f :: fs, l, h, i, hi => by
    have hf := h f (by simp)
    rw [reverseAll, reverseAll_outside fs _ (fun g hg => by rw [reversePart_length l hf]; exact h g (by simp [hg])) i (fun g hg => hi g (by simp [hg])),
      reversePart_at l hf, if_neg (hi f (by simp))]

theorem reverseAll_inside : ∀ (faces : List SFace) (l : List Int), (∀ f ∈ faces, f.first + f.num ≤ l.length) → Spec.Disjoint faces →
    ∀ g ∈ faces, ∀ k < g.num, (reverseAll faces l)[g.first + k]? = l[g.first + (g.num - 1 - k)]?
  | [], _, _, _, g, hg, _, _ => by simp at hg
  | f :: fs, l, h, hd, g, hg, k, hk => by
    have hf := h f (by simp)
    obtain ⟨hd1, hd2⟩ := List.pairwise_cons.1 hd
    have hlen : ∀ g ∈ fs, g.first + g.num ≤ (reversePart l f.first f.num).length := fun g hg => by
      rw [reversePart_length l hf]; exact h g (by simp [hg])
    rw [reverseAll]
    rcases List.mem_cons.1 hg with rfl | hg'
    · rw [reverseAll_outside fs _ hlen _ (fun x hx => by have := hd1 x hx; omega), reversePart_at l hf, if_pos ⟨by omega, by omega⟩]
      congr 1
      omega
    · rw [reverseAll_inside fs _ hlen hd2 g hg' k hk, reversePart_at l hf, if_neg]
      have := hd1 g hg'
      omega

theorem flips_odd {s : Vec K} (hs : Factors s) : flips s % 2 = 1 ↔ Mirror s := by
  obtain ⟨hx, hy, hz⟩ := hs
  unfold flips Mirror
  rcases lt_or_gt_of_ne hx with a | a <;> rcases lt_or_gt_of_ne hy with b | b <;> rcases lt_or_gt_of_ne hz with c | c <;>
    simp only [a, b, c, not_lt.2 a.le, not_lt.2 b.le, not_lt.2 c.le, if_true, if_false]
  · simpa using mul_neg_of_pos_of_neg (mul_pos_of_neg_of_neg a b) c
  · simpa using (mul_pos (mul_pos_of_neg_of_neg a b) c).le
  · simpa using (mul_pos_of_neg_of_neg (mul_neg_of_neg_of_pos a b) c).le
  · simpa using mul_neg_of_neg_of_pos (mul_neg_of_neg_of_pos a b) c
  · simpa using (mul_pos_of_neg_of_neg (mul_neg_of_pos_of_neg a b) c).le
  · simpa using mul_neg_of_neg_of_pos (mul_neg_of_pos_of_neg a b) c
  · simpa using mul_neg_of_pos_of_neg (mul_pos a b) c
  · simpa using (mul_pos (mul_pos a b) c).le

/-- The corner for a surfedge (lemma). -/
def cornerOf (edges : List (Nat × Nat)) (vertexes : List (Vec K)) (e : Option Int) : Option (Vec K) :=
  match e with
  | none => none
  | some e =>
    match edges[e.natAbs]? with
    | none => none
    | some v => if e < 0 then vertexes[v.2]? else vertexes[v.1]?

theorem cornerOf_image (edges : List (Nat × Nat)) (vertexes : List (Vec K)) (s : Vec K) (e : Option Int) :
    cornerOf edges (vertexes.map (smul s)) e = (cornerOf edges vertexes e).map (image s) := by
  unfold cornerOf
  cases e with
  | none => rfl
  | some e =>
    simp only
    cases edges[e.natAbs]? with
    | none => rfl
    | some v =>
      simp only
      split_ifs <;> rw [List.getElem?_map] <;> rfl

theorem corners_eq (surfedges : List Int) (edges : List (Nat × Nat)) (vertexes : List (Vec K)) (f : SFace) :
    corners surfedges edges vertexes f = (List.range f.num).map fun k => cornerOf edges vertexes surfedges[f.first + k]? := rfl

/-- **C205 (corners).** The corners of a face become their images: in the same order, or, in a mirror image, in the opposite order, so that the face
still faces the side that it faced. -/
theorem scale_corners (env : Env K) {s : Vec K} (hs : Factors s) {m : Map K} (hr : ∀ f ∈ m.faces, f.first + f.num ≤ m.surfedges.length)
    (hd : Spec.Disjoint m.faces) {k : Nat} {f : SFace} (hf : m.faces[k]? = some f) :
    ∃ f', (scale env s m).faces[k]? = some f' ∧
      (Mirror s → corners (scale env s m).surfedges (scale env s m).edges (scale env s m).vertexes f' =
        ((corners m.surfedges m.edges m.vertexes f).map (Option.map (image s))).reverse) ∧
      (¬ Mirror s → corners (scale env s m).surfedges (scale env s m).edges (scale env s m).vertexes f' =
        (corners m.surfedges m.edges m.vertexes f).map (Option.map (image s))) := by
  refine ⟨_, by simp only [scale, List.getElem?_map, hf, Option.map_some]; rfl, ?_, ?_⟩
  · intro hm
    have hodd := (flips_odd hs).2 hm
    apply List.ext_getElem?
    intro i
    by_cases hi : i < f.num
    · rw [List.getElem?_reverse (by simpa [corners] using hi)]
      simp only [corners_eq, List.getElem?_map, List.length_map, List.length_range, scale, if_pos hodd]
      rw [List.getElem?_range hi, List.getElem?_range (by omega)]
      simp only [Option.map_some]
      rw [reverseAll_inside m.faces m.surfedges hr hd f (List.mem_of_getElem? hf) i hi, cornerOf_image]
    · rw [List.getElem?_eq_none (by simp only [corners, List.length_map, List.length_range]; omega),
        List.getElem?_eq_none (by simp only [corners, List.length_map, List.length_range, List.length_reverse]; omega)]
  · intro hm
    have hodd : ¬ flips s % 2 = 1 := fun h => hm ((flips_odd hs).1 h)
    simp only [corners_eq, scale, if_neg hodd, List.map_map, Function.comp_def, cornerOf_image]

/-- A triangle of which the edges join. -/
def triMap : Map ℚ where
  planes := [⟨⟨⟨0, 0, 1⟩, 0⟩, .z⟩]
  nodes := []
  leafs := []
  clipnodes := []
  models := [⟨⟨0, 0, 0⟩, ⟨⟨0, 0, 0⟩, ⟨8, 8, 0⟩⟩⟩]
  faces := [⟨0, false, 0, 3⟩]
  surfedges := [1, 2, 3]
  edges := [(0, 0), (0, 1), (1, 2), (2, 0)]
  vertexes := [⟨0, 0, 0⟩, ⟨0, 8, 0⟩, ⟨8, 0, 0⟩]
  brushsides := []
  texinfos := []
  decoupled := none
  grid := some ⟨⟨32, 32, 32⟩, ⟨3, 3, 3⟩, ⟨0, 0, 0⟩⟩

def exEnv' : Env ℚ := ⟨fun v => |v.x| + |v.y| + |v.z|, 1 / 2000000, 1 / 20000, fun _ => 0, fun x => x, fun x => x⟩

instance (surfedges : List Int) (edges : List (Nat × Nat)) (vertexes : List (Vec K)) (f : SFace) : Decidable (Joined surfedges edges vertexes f) := by
  unfold Joined; infer_instance

/-- **C205, a defect.** The edges are put in the opposite order but not turned round: in a mirror image, an edge no longer ends where the next one
begins. -/
theorem scale_edges_torn :
    (∀ f ∈ triMap.faces, Joined triMap.surfedges triMap.edges triMap.vertexes f) ∧
      ∀ f ∈ (scale exEnv' ⟨-1, 1, 1⟩ triMap).faces, ¬ Joined (scale exEnv' ⟨-1, 1, 1⟩ triMap).surfedges (scale exEnv' ⟨-1, 1, 1⟩ triMap).edges
        (scale exEnv' ⟨-1, 1, 1⟩ triMap).vertexes f := by
  constructor <;> decide +kernel

/-- A case of `scale_corners`. -/
example : Factors (⟨-1, 1, 1⟩ : Vec ℚ) ∧ Mirror (⟨-1, 1, 1⟩ : Vec ℚ) ∧ (∀ f ∈ triMap.faces, f.first + f.num ≤ triMap.surfedges.length) ∧
    Spec.Disjoint triMap.faces ∧
    corners (scale exEnv' ⟨-1, 1, 1⟩ triMap).surfedges (scale exEnv' ⟨-1, 1, 1⟩ triMap).edges (scale exEnv' ⟨-1, 1, 1⟩ triMap).vertexes ⟨0, false, 0, 3⟩ =
      [some ⟨-8, 0, 0⟩, some ⟨0, 8, 0⟩, some ⟨0, 0, 0⟩] := by
  refine ⟨⟨by norm_num, by norm_num, by norm_num⟩, by unfold Mirror; norm_num, by decide, ?_, by decide +kernel⟩
  unfold Spec.Disjoint; simp [triMap]

/-- A case of the bounds. -/
example : ∃ x', (scale exEnv' ⟨-1, 2, 1⟩ triMap).models[0]? = some x' ∧ x'.box = ⟨⟨-8, 0, 0⟩, ⟨0, 16, 0⟩⟩ := by
  refine ⟨⟨⟨0, 0, 0⟩, ⟨⟨-8, 0, 0⟩, ⟨0, 16, 0⟩⟩⟩, ?_, rfl⟩
  simp [scale, triMap, smul, scaleBox, vmin, vmax]
  norm_num

/-! ### The light grid -/

theorem min_last {a d s : K} {n : Int} (hs : 0 < s) (hd : 0 ≤ d) (hn : 1 ≤ n) : min (a * s) ((a + d * ((n - 1 : Int) : K)) * s) = a * s := by
  refine min_eq_left (mul_le_mul_of_nonneg_right ?_ hs.le)
  have : (0 : K) ≤ ((n - 1 : Int) : K) := by exact_mod_cast (by omega : (0 : Int) ≤ n - 1)
  have := mul_nonneg hd this
  linarith

/-- **C205 (light grid).** With positive factors each point of the light grid becomes its image. -/
theorem scale_grid_partial (env : Env K) {s : Vec K} (hs : 0 < s.x ∧ 0 < s.y ∧ 0 < s.z) {m : Map K} {g : Grid K} (hg : m.grid = some g)
    (hd : 0 ≤ g.dist.x ∧ 0 ≤ g.dist.y ∧ 0 ≤ g.dist.z) (hn : 1 ≤ g.size.x ∧ 1 ≤ g.size.y ∧ 1 ≤ g.size.z) :
    ∃ g', (scale env s m).grid = some g' ∧ g'.size = g.size ∧ ∀ i, gridPoint g' i = image s (gridPoint g i) := by
  refine ⟨scaleGrid s g, by simp [scale, hg], rfl, ?_⟩
  intro i
  simp only [gridPoint, scaleGrid, smul, vmin, image, min_last hs.1 hd.1 hn.1, min_last hs.2.1 hd.2.1 hn.2.1, min_last hs.2.2 hd.2.2 hn.2.2, Vec.mk.injEq]
  refine ⟨?_, ?_, ?_⟩ <;> ring

/-- **C205, a defect.** With a negative factor the points of the grid are misplaced: the distance between them becomes negative, while the first point is
moved to the far end. Point `i` gets the place of the image of a point `i` steps past the end of the old grid. -/
theorem grid_mirrored (env : Env K) {s : Vec K} (hs : s.x < 0) {m : Map K} {g : Grid K} (hg : m.grid = some g) (hd : 0 < g.dist.x) (hn : 1 ≤ g.size.x) :
    ∃ g', (scale env s m).grid = some g' ∧ ∀ i, (gridPoint g' i).x = (image s (gridPoint g ⟨g.size.x - 1 + i.x, i.y, i.z⟩)).x := by
  refine ⟨scaleGrid s g, by simp [scale, hg], ?_⟩
  intro i
  have : min (g.mins.x * s.x) ((g.mins.x + g.dist.x * ((g.size.x - 1 : Int) : K)) * s.x) = (g.mins.x + g.dist.x * ((g.size.x - 1 : Int) : K)) * s.x := by
    refine min_eq_right (mul_le_mul_of_nonpos_right ?_ hs.le)
    have : (0 : K) ≤ ((g.size.x - 1 : Int) : K) := by exact_mod_cast (by omega : (0 : Int) ≤ g.size.x - 1)
    have := mul_nonneg hd.le this
    linarith
  simp only [gridPoint, scaleGrid, smul, vmin, image, this]
  push_cast
  ring

/-- A case: with the factor -1 the light that was for the points 0, 32 and 64 is now for -64, -96 and -128. -/
example : ∃ g', (scale exEnv' ⟨-1, 1, 1⟩ triMap).grid = some g' ∧
    [0, 1, 2].map (fun i => (gridPoint g' ⟨i, 0, 0⟩).x) = [-64, -96, -128] := by
  refine ⟨_, rfl, ?_⟩
  simp [scaleGrid, gridPoint, smul, vmin]
  norm_num

/-! ### Entities -/

open EntData (Str Dict)

theorem find_change (k : Str) (f : Str → Str) (d : Dict) (x : Str) :
    EntData.find (change k f d) x = if x = k then (EntData.find d k).map f else EntData.find d x := by
  unfold change
  by_cases h : EntData.has d k
  · rw [if_pos h, EntData.find_set]
    split_ifs with hx
    · unfold EntData.has at h
      unfold EntData.get
      cases hv : EntData.find d k with
      | none => rw [hv] at h; cases h
      | some v => rfl
    · rfl
  · rw [if_neg h]
    split_ifs with hx
    · unfold EntData.has at h
      subst hx
      cases hv : EntData.find d x with
      | none => rfl
      | some v => rw [hv] at h; exact absurd rfl h
    · rfl

theorem keys_change (k : Str) (f : Str → Str) (d : Dict) : (change k f d).map Prod.fst = d.map Prod.fst := by
  unfold change
  split_ifs with h
  · have := EntData.keys_set d k (f (EntData.get d k))
    rw [if_pos ((EntData.find_isSome d k).1 h)] at this
    exact this
  · rfl

/-- **C205 (entities).** An entity keeps its keys, and the values of all of them except `origin`, which is scaled, `height`, which is scaled by the third
factor, and `lip`, of which the excess over 2 is scaled by the third factor. -/
theorem scale_entities (t : Text K) (s : Vec K) (d : Dict) :
    (scaleEnt t s d).map Prod.fst = d.map Prod.fst ∧
    EntData.find (scaleEnt t s d) kOrigin = (EntData.find d kOrigin).map (fun v => t.showVec (image s (t.vec v))) ∧
    EntData.find (scaleEnt t s d) kLip = (EntData.find d kLip).map (fun v => t.showNum ((t.num v - 2) * s.z + 2)) ∧
    EntData.find (scaleEnt t s d) kHeight = (EntData.find d kHeight).map (fun v => t.showNum (t.num v * s.z)) ∧
    ∀ k, k ≠ kOrigin → k ≠ kLip → k ≠ kHeight → EntData.find (scaleEnt t s d) k = EntData.find d k := by
  refine ⟨?_, ?_, ?_, ?_, ?_⟩
  · simp only [scaleEnt, keys_change]
  · simp only [scaleEnt, find_change, show kOrigin ≠ kHeight by decide, show kOrigin ≠ kLip by decide, if_false, if_true]; rfl
  · simp only [scaleEnt, find_change, show kLip ≠ kHeight by decide, show kLip ≠ kOrigin by decide, if_false, if_true]
  · simp only [scaleEnt, find_change, show kHeight ≠ kLip by decide, show kHeight ≠ kOrigin by decide, if_false, if_true]
  · intro k h1 h2 h3
    simp only [scaleEnt, find_change, if_neg h1, if_neg h2, if_neg h3]

/-- **C205 (entities).** What the rule for `lip` is for: a lift whose box is `size` high (2 more than its brushes) travels `size - lip`; the scaled one
travels the scaled way. -/
theorem lip_travel (size lip z : K) : ((size - 2) * z + 2) - ((lip - 2) * z + 2) = (size - lip) * z := by ring

end Verif.BspUtil.Scale
