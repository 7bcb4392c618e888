import Verif.Textures.SampleProps

/-!
C153: the average colour of a texture.
-/

namespace Verif.Textures

open Spec

variable {K : Type} [Field K] [LinearOrder K] [IsStrictOrderedRing K] [FloorRing K]

theorem sum_le (l : List Byte) (m : Nat) (h : ∀ b ∈ l, b.toNat ≤ m) : (l.map (·.toNat)).sum ≤ l.length * m := by
  induction l with
  | nil => simp
  | cons a l ih =>
    have := ih (fun b hb => h b (by simp [hb]))
    have := h a (by simp)
    simp only [List.map_cons, List.sum_cons, List.length_cons]
    rw [Nat.add_mul, Nat.one_mul]
    omega

theorem le_sum (l : List Byte) (m : Nat) (h : ∀ b ∈ l, m ≤ b.toNat) : l.length * m ≤ (l.map (·.toNat)).sum := by
  induction l with
  | nil => simp
  | cons a l ih =>
    have := ih (fun b hb => h b (by simp [hb]))
    have := h a (by simp)
    simp only [List.map_cons, List.sum_cons, List.length_cons]
    rw [Nat.add_mul, Nat.one_mul]
    omega

theorem mean_eq (l : List Byte) : (mean l.length l).toNat = (l.map (·.toNat)).sum / l.length := by
  unfold mean
  rw [BitVec.toNat_ofNat]
  apply Nat.mod_eq_of_lt
  have h1 := sum_le l 255 (fun b _ => by have := b.isLt; omega)
  exact Nat.lt_of_le_of_lt (Nat.div_le_of_le_mul h1) (by decide)

theorem mean_bounds (l : List Byte) (h : 0 < l.length) (lo hi : Nat) (hb : ∀ b ∈ l, lo ≤ b.toNat ∧ b.toNat ≤ hi) :
    lo ≤ (mean l.length l).toNat ∧ (mean l.length l).toNat ≤ hi := by
  rw [mean_eq l]
  constructor
  · rw [Nat.le_div_iff_mul_le h, Nat.mul_comm]; exact le_sum l lo (fun b hb' => (hb b hb').1)
  · exact Nat.div_le_of_le_mul (sum_le l hi (fun b hb' => (hb b hb').2))

theorem mem_solid (px : List Rgba) (c : Rgb) : c ∈ solid px ↔ ∃ p ∈ px, counts p ∧ p.rgb = c := by
  unfold solid counts
  simp only [List.mem_map, List.mem_filter, decide_eq_true_eq]
  constructor
  · rintro ⟨p, ⟨h1, h2⟩, h3⟩; exact ⟨p, h1, h2, h3⟩
  · rintro ⟨p, h1, h2, h3⟩; exact ⟨p, ⟨h1, h2⟩, h3⟩

/-- **C153**: each component of the average is the sum of those of the pixels that count, divided by their number, without the
fraction. -/
theorem average_mean_partial (px : List Rgba) (h : ∃ p ∈ px, counts p) : ∃ c, average px = .ok c ∧
    c.r.toNat = (((px.filter fun p => 127 ≤ p.a.toNat).map fun p => p.rgb.r.toNat).sum / px.countP fun p => 127 ≤ p.a.toNat) ∧
    c.g.toNat = (((px.filter fun p => 127 ≤ p.a.toNat).map fun p => p.rgb.g.toNat).sum / px.countP fun p => 127 ≤ p.a.toNat) ∧
    c.b.toNat = (((px.filter fun p => 127 ≤ p.a.toNat).map fun p => p.rgb.b.toNat).sum / px.countP fun p => 127 ≤ p.a.toNat) := by
  obtain ⟨p, hp, hc⟩ := h
  have hpos : 0 < (solid px).length := List.length_pos_of_mem ((mem_solid px p.rgb).mpr ⟨p, hp, hc, rfl⟩)
  unfold average
  rw [if_neg (by omega)]
  have hn : (solid px).length = px.countP fun p => 127 ≤ p.a.toNat := by
    unfold solid; rw [List.length_map, List.countP_eq_length_filter]
  have key : ∀ f : Rgb → Byte, (mean (solid px).length ((solid px).map f)).toNat =
      (((px.filter fun p => 127 ≤ p.a.toNat).map fun p => (f p.rgb).toNat).sum / px.countP fun p => 127 ≤ p.a.toNat) := by
    intro f
    have := mean_eq ((solid px).map f)
    rw [List.length_map] at this
    rw [this, hn]
    unfold solid
    simp only [List.map_map, Function.comp_def]
  exact ⟨_, rfl, key _, key _, key _⟩

/-- **C153**: each component of the average is between the least and the largest of the pixels that count. -/
theorem average_bounds_partial (px : List Rgba) (c : Rgb) (h : average px = .ok c) (f : Rgb → Byte)
    (hf : f = Rgb.r ∨ f = Rgb.g ∨ f = Rgb.b) (lo hi : Nat)
    (hb : ∀ p ∈ px, counts p → lo ≤ (f p.rgb).toNat ∧ (f p.rgb).toNat ≤ hi) :
    lo ≤ (f c).toNat ∧ (f c).toNat ≤ hi := by
  unfold average at h
  simp only at h
  split at h
  · cases h
  · rename_i hne
    cases h
    have key : ∀ b ∈ (solid px).map f, lo ≤ b.toNat ∧ b.toNat ≤ hi := by
      intro b hb'
      obtain ⟨c, hc, rfl⟩ := List.mem_map.mp hb'
      obtain ⟨p, h1, h2, rfl⟩ := (mem_solid px c).mp hc
      exact hb p h1 h2
    have := mean_bounds ((solid px).map f) (by simp; omega) lo hi key
    rw [List.length_map] at this
    rcases hf with rfl | rfl | rfl <;> exact this

theorem toByte_ok (x : K) (h0 : 0 ≤ x) (h1 : x ≤ 255) : ∃ b, toByte x = .ok b ∧ (b.toNat : K) ≤ x ∧ x < (b.toNat : K) + 1 := by
  have hf : 0 ≤ ⌊x⌋ := Int.floor_nonneg.mpr h0
  have hlt : ⌊x⌋ < 256 := Int.floor_lt.mpr (by push_cast; linarith)
  unfold toByte
  rw [if_pos ⟨by linarith, by linarith⟩]
  refine ⟨_, rfl, ?_⟩
  rw [BitVec.toNat_ofNat, Nat.mod_eq_of_lt (by omega)]
  have : ((⌊x⌋.toNat : Nat) : K) = ((⌊x⌋ : Int) : K) := by rw [← Int.cast_natCast, Int.toNat_of_nonneg hf]
  rw [this]
  exact ⟨Int.floor_le x, Int.lt_floor_add_one x⟩

omit [FloorRing K] in
theorem clamp_range (x : K) : 0 ≤ clamp x 0 255 ∧ clamp x 0 255 ≤ 255 := by
  unfold clamp
  by_cases h1 : x < 0
  · rw [if_pos h1]; norm_num
  · rw [if_neg h1]
    by_cases h2 : 255 < x
    · rw [if_pos h2]; norm_num
    · rw [if_neg h2]; exact ⟨not_lt.mp h1, not_lt.mp h2⟩

theorem unclip_ok (m x : K) : ∃ b, unclip m x = .ok b := by
  unfold unclip
  obtain ⟨b, h, _⟩ := toByte_ok (clamp ((if 1 < m then x / m else x) * 255) 0 255) (clamp_range _).1 (clamp_range _).2
  exact ⟨b, h⟩

theorem quot_eq (x : K) (p q b : Nat) (hq : 0 < q) (hx : x = (p : K) / q) (h1 : (b : K) ≤ x) (h2 : x < (b : K) + 1) : b = p / q := by
  have hq' : (0 : K) < q := by exact_mod_cast hq
  rw [hx, le_div_iff₀ hq'] at h1
  rw [hx, div_lt_iff₀ hq'] at h2
  have h1' : b * q ≤ p := by exact_mod_cast h1
  have h2' : p < (b + 1) * q := by exact_mod_cast h2
  exact (Nat.div_eq_of_lt_le (by rw [Nat.mul_comm] at h1' ⊢; linarith [Nat.mul_comm q b]) (by linarith)).symm

omit [FloorRing K] in
theorem boosted_mono (a b : Byte) (h : a.toNat ≤ b.toNat) : (boosted a : K) ≤ boosted b := by
  unfold boosted
  have h1 : (a.toNat : K) ≤ b.toNat := by exact_mod_cast h
  have h0 : (0 : K) ≤ (a.toNat : K) := by positivity
  have h2 : (a.toNat / 255 : K) ≤ b.toNat / 255 := by gcongr
  have h3 : (0 : K) ≤ a.toNat / 255 := by positivity
  nlinarith

omit [FloorRing K] in
theorem boosted_max (r g b : Byte) : ∃ m : Byte, m.toNat = max (max r.toNat g.toNat) b.toNat ∧
    max (max (boosted r : K) (boosted g)) (boosted b) = boosted m := by
  have two : ∀ x y : Byte, ∃ m : Byte, m.toNat = max x.toNat y.toNat ∧ max (boosted x : K) (boosted y) = boosted m := by
    intro x y
    rcases Nat.le_total x.toNat y.toNat with h | h
    · exact ⟨y, by omega, max_eq_right (boosted_mono x y h)⟩
    · exact ⟨x, by omega, max_eq_left (boosted_mono y x h)⟩
  obtain ⟨m, h1, h2⟩ := two r g
  obtain ⟨n, h3, h4⟩ := two m b
  exact ⟨n, by omega, by rw [h2, h4]⟩

theorem unclip_vivid (m c : Byte) (h : c.toNat ≤ m.toNat) : ∃ b, unclip (boosted m : K) (boosted c) = .ok b ∧
    b.toNat = vivid m.toNat c.toNat := by
  have hc0 : (0 : K) ≤ (c.toNat : K) := by positivity
  have hcm : (c.toNat : K) ≤ (m.toNat : K) := by exact_mod_cast h
  have e : (if 1 < (boosted m : K) then (boosted c : K) / boosted m else boosted c) * 255 =
      if 2 * (m.toNat * m.toNat) ≤ 255 * 255 then ((2 * (c.toNat * c.toNat) : Nat) : K) / (255 : Nat)
      else ((255 * (c.toNat * c.toNat) : Nat) : K) / ((m.toNat * m.toNat : Nat) : K) := by
    have hm : (boosted m : K) = ((2 * (m.toNat * m.toNat) : Nat) : K) / ((255 * 255 : Nat) : K) := by
      unfold boosted; push_cast; ring
    have hiff : 1 < (boosted m : K) ↔ 255 * 255 < 2 * (m.toNat * m.toNat) := by
      rw [hm, one_lt_div (by norm_num)]; exact Nat.cast_lt
    by_cases hl : 2 * (m.toNat * m.toNat) ≤ 255 * 255
    · rw [if_neg (by rw [hiff]; omega), if_pos hl]
      unfold boosted; push_cast; field_simp
    · rw [if_pos (by rw [hiff]; omega), if_neg hl]
      have hm0 : (m.toNat : K) ≠ 0 := by
        intro h0
        have : m.toNat = 0 := by exact_mod_cast h0
        rw [this] at hl; omega
      unfold boosted; push_cast; field_simp
  have hsq : (c.toNat : K) * c.toNat ≤ (m.toNat : K) * m.toNat := by nlinarith
  have hr : 0 ≤ (if 1 < (boosted m : K) then (boosted c : K) / boosted m else boosted c) * 255 ∧
      (if 1 < (boosted m : K) then (boosted c : K) / boosted m else boosted c) * 255 ≤ 255 := by
    rw [e]
    by_cases hl : 2 * (m.toNat * m.toNat) ≤ 255 * 255
    · rw [if_pos hl]
      refine ⟨by positivity, ?_⟩
      rw [div_le_iff₀ (by norm_num)]
      have hl' : 2 * ((m.toNat : K) * m.toNat) ≤ 255 * 255 := by exact_mod_cast hl
      push_cast
      nlinarith
    · rw [if_neg hl]
      refine ⟨by positivity, ?_⟩
      have hpos : (0 : K) < ((m.toNat * m.toNat : Nat) : K) := by exact_mod_cast (show 0 < m.toNat * m.toNat by omega)
      rw [div_le_iff₀ hpos]
      push_cast
      nlinarith
  unfold unclip
  generalize (if 1 < (boosted m : K) then (boosted c : K) / boosted m else boosted c) * 255 = x at *
  have hcl : clamp x 0 255 = x := by
    unfold clamp
    rw [if_neg (not_lt.mpr hr.1), if_neg (not_lt.mpr hr.2)]
  rw [hcl]
  obtain ⟨b, hb, l, u⟩ := toByte_ok x hr.1 hr.2
  refine ⟨b, hb, ?_⟩
  unfold vivid
  by_cases hl : 2 * (m.toNat * m.toNat) ≤ 255 * 255
  · rw [if_pos hl] at e ⊢
    exact quot_eq x _ 255 _ (by norm_num) e l u
  · rw [if_neg hl] at e ⊢
    exact quot_eq x _ _ _ (by omega) e l u

/-- **C153**: what more saturation is. -/
theorem saturate_vivid (c : Rgb) : ∃ s, saturate K c = .ok s ∧
    s.r.toNat = vivid (max (max c.r.toNat c.g.toNat) c.b.toNat) c.r.toNat ∧
    s.g.toNat = vivid (max (max c.r.toNat c.g.toNat) c.b.toNat) c.g.toNat ∧
    s.b.toNat = vivid (max (max c.r.toNat c.g.toNat) c.b.toNat) c.b.toNat := by
  unfold saturate
  simp only
  obtain ⟨m, hm, e⟩ := boosted_max (K := K) c.r c.g c.b
  rw [e, ← hm]
  obtain ⟨r, h1, h2⟩ := unclip_vivid (K := K) m c.r (by omega)
  obtain ⟨g, h3, h4⟩ := unclip_vivid (K := K) m c.g (by omega)
  obtain ⟨b, h5, h6⟩ := unclip_vivid (K := K) m c.b (by omega)
  rw [h1, h3, h5]
  exact ⟨_, rfl, h2, h4, h6⟩

/-- The increased saturation is always a colour. -/
theorem saturate_ok (c : Rgb) : ∃ s, saturate K c = .ok s := by
  unfold saturate
  simp only
  obtain ⟨r, hr⟩ := unclip_ok (max (max (boosted c.r : K) (boosted c.g)) (boosted c.b)) (boosted c.r)
  obtain ⟨g, hg⟩ := unclip_ok (max (max (boosted c.r : K) (boosted c.g)) (boosted c.b)) (boosted c.g)
  obtain ⟨b, hb⟩ := unclip_ok (max (max (boosted c.r : K) (boosted c.g)) (boosted c.b)) (boosted c.b)
  rw [hr, hg, hb]
  exact ⟨_, rfl⟩

/-- The mixture of two colours. -/
theorem mixByte_whole (f : K) (h0 : 0 ≤ f) (h1 : f ≤ 1) (a b : Byte) : ∃ c, mixByte f a b = .ok c ∧
    Whole c (lerp f (a.toNat : K) (b.toNat : K)) := by
  have ha : (a.toNat : K) ≤ 255 := by exact_mod_cast (show a.toNat ≤ 255 by have := a.isLt; omega)
  have hb : (b.toNat : K) ≤ 255 := by exact_mod_cast (show b.toNat ≤ 255 by have := b.isLt; omega)
  have ha0 : (0 : K) ≤ (a.toNat : K) := by positivity
  have hb0 : (0 : K) ≤ (b.toNat : K) := by positivity
  obtain ⟨c, hc, l, u⟩ := toByte_ok (a.toNat * (1 - f) + b.toNat * f : K) (by nlinarith) (by nlinarith)
  refine ⟨c, hc, ?_⟩
  unfold Whole lerp
  constructor <;> linarith

/-- **C153**: a texture with a pixel that counts, or with a colour in its metadata, gets an average colour, for every boost of
the saturation from 0 to 1. The colour in the metadata is it. Otherwise it is between the mean of the pixels and the more
saturated colour, nearer to the latter the larger the boost is. -/
theorem averageColor_ok_partial (boost : K) (h0 : 0 ≤ boost) (h1 : boost ≤ 1) (ov : Option Rgb) (px : List Rgba)
    (h : ov ≠ none ∨ ∃ p ∈ px, counts p) : ∃ c, averageColor boost ov px = .ok c ∧ (∀ o, ov = some o → c = o) ∧
      (ov = none → ∃ a s, average px = .ok a ∧ saturate K a = .ok s ∧ Whole c.r (lerp boost (a.r.toNat : K) (s.r.toNat : K)) ∧
        Whole c.g (lerp boost (a.g.toNat : K) (s.g.toNat : K)) ∧ Whole c.b (lerp boost (a.b.toNat : K) (s.b.toNat : K))) := by
  unfold averageColor
  cases ov with
  | some o => exact ⟨o, rfl, by simp, by simp⟩
  | none =>
    have hp : ∃ p ∈ px, counts p := by
      rcases h with h | h
      · exact absurd rfl h
      · exact h
    obtain ⟨a, ha, _⟩ := average_mean_partial px hp
    obtain ⟨s, hs⟩ := saturate_ok (K := K) a
    simp only [ha, Outcome.ok_bind]
    by_cases hb : 0 < boost
    · rw [if_pos hb, hs]
      simp only [Outcome.ok_bind]
      obtain ⟨r, er, r1⟩ := mixByte_whole boost h0 h1 a.r s.r
      obtain ⟨g, eg, g1⟩ := mixByte_whole boost h0 h1 a.g s.g
      obtain ⟨b, eb, b1⟩ := mixByte_whole boost h0 h1 a.b s.b
      rw [er, eg, eb]
      exact ⟨_, rfl, by simp, fun _ => ⟨a, s, rfl, hs, r1, g1, b1⟩⟩
    · rw [if_neg hb]
      have hz : boost = 0 := le_antisymm (not_lt.mp hb) h0
      have key : ∀ x y : Byte, Whole x (lerp boost (x.toNat : K) (y.toNat : K)) := by
        intro x y; unfold Whole lerp; rw [hz]; constructor <;> linarith
      exact ⟨a, rfl, by simp, fun _ => ⟨a, s, rfl, hs, key _ _, key _ _, key _ _⟩⟩

/-! ### No average -/

/-- C153: a colour in the metadata of a Quake II texture is its average colour, whether the image was found or not. -/
theorem metadata_color (boost : K) (found : Option Texture) (m : Meta) (c : Rgb) (h : m.override = some c) :
    ∃ t, addTexture boost found (some m) = .ok t ∧ t.average = c ∧ t.mw = m.w ∧ t.mh = m.h := by
  refine ⟨{ found.getD .empty with mw := m.w, mh := m.h, override := m.override, average := c }, ?_, rfl, rfl, rfl⟩
  unfold addTexture averageColor
  simp only [h, Outcome.ok_bind, Outcome.pure_eq]

/-- A texture of Quake II that is not found has no pixels, so that its average is 0 / 0, which is converted to a byte. -/
theorem missing_ub (boost : K) : addTexture boost none none = .ub := by
  unfold addTexture averageColor average
  rfl

/-- So is the average of a texture that is all transparent. -/
theorem transparent_ub (boost : K) (px : List Rgba) (h : ∀ p ∈ px, ¬ counts p) : averageColor boost none px = .ub := by
  have : (solid px).length = 0 := by
    rw [List.length_eq_zero_iff, List.eq_nil_iff_forall_not_mem]
    intro c hc
    obtain ⟨p, h1, h2, _⟩ := (mem_solid px c).mp hc
    exact h p h1 h2
  unfold averageColor average
  simp only
  rw [if_pos this]
  rfl

/-! ### The hypotheses are met -/

example : average [⟨⟨10, 20, 30⟩, 255⟩, ⟨⟨200, 200, 200⟩, 0⟩, ⟨⟨13, 20, 31⟩, 127⟩] = .ok ⟨11, 20, 30⟩ := by decide +kernel

example : averageColor (1 / 2 : ℚ) none [⟨⟨200, 100, 50⟩, 255⟩] = .ok ⟨227, 81, 32⟩ := by decide +kernel

example : ∃ p ∈ [(⟨⟨10, 20, 30⟩, 255⟩ : Rgba), ⟨⟨200, 200, 200⟩, 0⟩], counts p :=
  ⟨⟨⟨10, 20, 30⟩, 255⟩, by simp, by unfold counts; decide⟩

end Verif.Textures
