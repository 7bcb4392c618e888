import Verif.Textures.LoadProps

/-!
C151: light reads the pixel of a texture at given texture coordinates as if the image were repeated for ever.
C152: a projected texture.
-/

namespace Verif.Textures

open Spec

variable {K : Type} [Field K] [LinearOrder K] [IsStrictOrderedRing K] [FloorRing K]

/-- The index is the coordinate without its fraction, modulo the size. -/
theorem clamp_mod (x : K) (n : Nat) (hn : 0 < n) (hx : |x| ≤ 2 ^ 32 - 1) :
    clampTexcoord x n = .ok (⌊x⌋ % (n : Int)).toNat := by
  unfold clampTexcoord
  by_cases h0 : 0 ≤ x
  · rw [if_pos h0]
    have hf : 0 ≤ ⌊x⌋ := Int.floor_nonneg.mpr h0
    have h1 : x < 2 ^ 32 := by rw [abs_of_nonneg h0] at hx; linarith
    unfold toU32
    rw [if_pos ⟨by linarith, h1⟩]
    simp only [Outcome.ok_bind, mod32]
    rw [if_neg (by omega)]
    congr 1
    obtain ⟨m, hm⟩ : ∃ m : Nat, ⌊x⌋ = m := ⟨⌊x⌋.toNat, by omega⟩
    rw [hm]
    rfl
  · rw [if_neg h0]
    push Not at h0
    have ha : |x| = -x := abs_of_neg h0
    rw [ha] at hx ⊢
    have hc : ⌈-x⌉ = -⌊x⌋ := Int.ceil_neg
    have hneg : ⌊x⌋ < 0 := Int.floor_lt.mpr (by simpa using h0)
    obtain ⟨m, hm⟩ : ∃ m : Nat, -⌊x⌋ = m := ⟨(-⌊x⌋).toNat, by omega⟩
    have hle : ((m : Int) : K) ≤ 2 ^ 32 - 1 := by
      have : ⌈-x⌉ ≤ (2 ^ 32 - 1 : Int) := Int.ceil_le.mpr (by push_cast; norm_num at hx ⊢; exact hx)
      rw [hc, hm] at this
      calc ((m : Int) : K) ≤ ((2 ^ 32 - 1 : Int) : K) := by exact_mod_cast this
        _ = 2 ^ 32 - 1 := by push_cast; norm_num
    rw [hc, hm]
    have hm0 : (0 : K) ≤ ((m : Int) : K) := by positivity
    unfold toU32
    rw [if_pos ⟨by linarith, by linarith⟩]
    simp only [Outcome.ok_bind, Int.floor_intCast, Int.toNat_natCast, mod32]
    rw [if_neg (by omega)]
    simp only [Outcome.ok_bind]
    rw [if_neg (by omega)]
    congr 1
    have hfl : ⌊x⌋ = -(m : Int) := by omega
    rw [hfl]
    have hmod := Nat.mod_lt m hn
    have e : (-(m : Int)) % (n : Int) = (((n - m % n) % n : Nat) : Int) := by
      have hd := Nat.div_add_mod m n
      have : (-(m : Int)) = ((n - m % n : Nat) : Int) + (n : Int) * (-(m / n : Nat) - 1) := by
        have h2 : (m : Int) = (n : Int) * ((m / n : Nat) : Int) + ((m % n : Nat) : Int) := by exact_mod_cast hd.symm
        rw [Nat.cast_sub hmod.le]
        rw [mul_sub, mul_neg, mul_one]
        omega
      rw [this, Int.add_mul_emod_self_left]
      rfl
    rw [e, Int.toNat_natCast]

omit [LinearOrder K] [IsStrictOrderedRing K] [FloorRing K] in
theorem scaleX_eq (t : Texture) (u : K) : u * t.scaleX = scaled t t.w t.mw u := by
  unfold Texture.scaleX scaled
  by_cases h : t.mw = 0 ∨ t.mh = 0
  · rw [if_neg (by tauto), if_pos h, mul_one]
  · rw [if_pos (by tauto), if_neg h, mul_div_assoc]

omit [LinearOrder K] [IsStrictOrderedRing K] [FloorRing K] in
theorem scaleY_eq (t : Texture) (u : K) : u * t.scaleY = scaled t t.h t.mh u := by
  unfold Texture.scaleY scaled
  by_cases h : t.mw = 0 ∨ t.mh = 0
  · rw [if_neg (by tauto), if_pos h, mul_one]
  · rw [if_pos (by tauto), if_neg h, mul_div_assoc]

/-- **C151**: in a texture whose pixels fill it, the pixel is that of the repeated image. -/
theorem sample_tiled (t : Texture) (u v : K) (hw : 0 < t.w) (hh : 0 < t.h) (hf : Full t) (hs : t.w * t.h ≤ 2 ^ 32)
    (hu : |scaled t t.w t.mw u| ≤ 2 ^ 32 - 1) (hv : |scaled t t.h t.mh v| ≤ 2 ^ 32 - 1) :
    ∃ p, sampleTexture (some t) u v = .ok p ∧
      tiled t ⌊scaled t t.w t.mw u⌋ ⌊scaled t t.h t.mh v⌋ = some p := by
  unfold sampleTexture
  simp only
  rw [if_neg (by omega), scaleX_eq, scaleY_eq, clamp_mod _ _ hw hu, clamp_mod _ _ hh hv]
  simp only [Outcome.ok_bind]
  unfold tiled
  generalize hx : (⌊scaled t t.w t.mw u⌋ % (t.w : Int)).toNat = x
  generalize hy : (⌊scaled t t.h t.mh v⌋ % (t.h : Int)).toNat = y
  have hx' : x < t.w := by
    have := Int.emod_lt_of_pos ⌊scaled t t.w t.mw u⌋ (show (0 : Int) < t.w by omega)
    omega
  have hy' : y < t.h := by
    have := Int.emod_lt_of_pos ⌊scaled t t.h t.mh v⌋ (show (0 : Int) < t.h by omega)
    omega
  have hb : x + t.w * y < t.w * t.h := by
    have : t.w * (y + 1) ≤ t.w * t.h := Nat.mul_le_mul_left _ hy'
    rw [Nat.mul_succ] at this
    omega
  have e : (mul32 t.w y + x) % 2 ^ 32 = x + t.w * y := by
    unfold mul32
    rw [Nat.mod_eq_of_lt (show t.w * y < 2 ^ 32 by omega), Nat.mod_eq_of_lt (by omega)]
    omega
  rw [e]
  have hl : x + t.w * y < t.pixels.length := by rw [hf]; exact hb
  refine ⟨t.pixels[x + t.w * y], ?_, List.getElem?_eq_getElem hl⟩
  simp [Outcome.readAt, List.getElem?_eq_getElem hl]

/-- What a loader returned: all its pixels, or none at all. -/
theorem mip_full (hl : Bool) (pal : List Rgb) (f : List Byte) (t : Texture) (h : loadMip hl pal f false = .ok (some t))
    (hsize : t.w * t.h < 2 ^ 32) : t.mw = t.w ∧ t.mh = t.h ∧ (t.pixels = [] ∨ Full t) := by
  unfold loadMip at h
  rw [Outcome.bind_eq_ok] at h
  obtain ⟨r, _, h⟩ := h
  split at h
  · cases h
  · split at h
    · cases h
    · rename_i v _
      simp only [Bool.false_eq_true, if_false] at h
      split at h
      · cases h; exact ⟨rfl, rfl, .inl rfl⟩
      · split at h
        · cases h; exact ⟨rfl, rfl, .inl rfl⟩
        · rw [Outcome.bind_eq_ok] at h
          obtain ⟨p, hp, h⟩ := h
          rw [Outcome.bind_eq_ok] at h
          obtain ⟨own, _, h⟩ := h
          rw [Outcome.bind_eq_ok] at h
          obtain ⟨px, hpx, h⟩ := h
          cases h
          refine ⟨rfl, rfl, .inr ?_⟩
          unfold Full
          simp only at hsize ⊢
          rw [convert_length _ _ _ hpx, readInto_length _ _ _ hp]
          exact Nat.mod_eq_of_lt hsize

/-- The pixels in the cache fill the image, or there are none. -/
theorem convertTexture_full (hl : Bool) (pal : List Rgb) (boost : K) (data : List Byte) (repl : Option Texture) (t : Texture)
    (h : convertTexture hl pal boost data repl = .ok t) (hr : ∀ r ∈ repl, Full r) (hsize : t.w * t.h < 2 ^ 32) :
    t.pixels = [] ∨ Full t := by
  unfold convertTexture at h
  rw [Outcome.bind_eq_ok] at h
  obtain ⟨own, hown, h⟩ := h
  have main : (replaced (own.getD .empty) repl).w * (replaced (own.getD .empty) repl).h < 2 ^ 32 →
      (replaced (own.getD .empty) repl).pixels = [] ∨ Full (replaced (own.getD .empty) repl) := by
    intro hs
    cases repl with
    | some r =>
      right
      have := hr r rfl
      unfold Full at this ⊢
      exact this
    | none =>
      cases own with
      | none => exact .inl rfl
      | some o =>
        unfold embedded at hown
        by_cases h40 : 40 ≤ data.length
        · rw [if_pos h40] at hown
          exact (mip_full hl pal data o hown hs).2.2
        · rw [if_neg h40] at hown
          cases hown
  simp only at h
  split at h
  · cases h; exact main hsize
  · rw [Outcome.bind_eq_ok] at h
    obtain ⟨c, _, h⟩ := h
    cases h
    exact main hsize

/-- **C151**, for the textures of a BSP file that are in the cache. -/
theorem cache_sample_partial (hl : Bool) (pal : List Rgb) (boost : K) (data : List Byte) (repl : Option Texture) (t : Texture)
    (h : convertTexture hl pal boost data repl = .ok t) (hr : ∀ r ∈ repl, Full r) (hsize : t.w * t.h < 2 ^ 32)
    (hpix : t.pixels ≠ []) (u v : K) (hu : |scaled t t.w t.mw u| ≤ 2 ^ 32 - 1) (hv : |scaled t t.h t.mh v| ≤ 2 ^ 32 - 1) :
    ∃ p, sampleTexture (some t) u v = .ok p ∧
      tiled t ⌊scaled t t.w t.mw u⌋ ⌊scaled t t.h t.mh v⌋ = some p := by
  rcases convertTexture_full hl pal boost data repl t h hr hsize with h0 | hf
  · exact absurd h0 hpix
  · have hpos : 0 < t.w * t.h := by
      rw [← hf]; exact List.length_pos_iff.mpr hpix
    have := Nat.pos_of_mul_pos_left hpos
    have := Nat.pos_of_mul_pos_right hpos
    exact sample_tiled t u v (by assumption) (by assumption) hf hsize.le hu hv

/-- **C151**, for the textures of Quake II. -/
theorem cache_sample_q2_partial (boost : K) (found : Option Texture) (m : Option Meta) (t : Texture)
    (h : addTexture boost found m = .ok t) (hr : ∀ r ∈ found, Full r) (hsize : t.w * t.h < 2 ^ 32)
    (hpix : t.pixels ≠ []) (u v : K) (hu : |scaled t t.w t.mw u| ≤ 2 ^ 32 - 1) (hv : |scaled t t.h t.mh v| ≤ 2 ^ 32 - 1) :
    ∃ p, sampleTexture (some t) u v = .ok p ∧
      tiled t ⌊scaled t t.w t.mw u⌋ ⌊scaled t t.h t.mh v⌋ = some p := by
  have hf : Full t := by
    unfold addTexture at h
    rw [Outcome.bind_eq_ok] at h
    obtain ⟨c, _, h⟩ := h
    cases h
    cases found with
    | none => cases m <;> exact absurd rfl hpix
    | some r =>
      have := hr r rfl
      unfold Full at this ⊢
      cases m <;> exact this
  have hpos : 0 < t.w * t.h := by
    rw [← hf]; exact List.length_pos_iff.mpr hpix
  have := Nat.pos_of_mul_pos_left hpos
  have := Nat.pos_of_mul_pos_right hpos
  exact sample_tiled t u v (by assumption) (by assumption) hf hsize.le hu hv

/-- C151: where there is no texture, or one without an image, the pixel is transparent. -/
theorem no_texture_clear (t : Option Texture) (u v : K) (h : ∀ r ∈ t, r.w = 0) :
    ∃ p, sampleTexture t u v = .ok p ∧ p.a = 0 := by
  cases t with
  | none => exact ⟨_, rfl, rfl⟩
  | some r =>
    refine ⟨⟨⟨0, 0, 0⟩, 0⟩, ?_, rfl⟩
    unfold sampleTexture
    simp only [h r rfl, if_true]

/-! ### Reads beyond the pixels -/

/-- A texture whose pixels are not in the BSP file (qbsp's `-notex` and others) stays in the cache with its size, so that
looking at it is a read from an empty vector. -/
theorem stripped_ub : ∃ t, convertTexture (K := ℚ) false exPal 0 (exMip 2 2 0 0) none = .ok t ∧
    ∀ u v : ℚ, |u| ≤ 1 → |v| ≤ 1 → sampleTexture (some t) u v = .ub := by
  refine ⟨⟨2, 2, none, 2, 2, [], ⟨0, 0, 0⟩⟩, by decide +kernel, ?_⟩
  intro u v hu hv
  unfold sampleTexture
  simp only
  rw [if_neg (by decide)]
  have e1 : Texture.scaleX (K := ℚ) ⟨2, 2, none, 2, 2, [], ⟨0, 0, 0⟩⟩ = 1 := by unfold Texture.scaleX; norm_num
  have e2 : Texture.scaleY (K := ℚ) ⟨2, 2, none, 2, 2, [], ⟨0, 0, 0⟩⟩ = 1 := by unfold Texture.scaleY; norm_num
  rw [e1, e2, mul_one, mul_one, clamp_mod u 2 (by decide) (by linarith), clamp_mod v 2 (by decide) (by linarith)]
  simp [Outcome.readAt]

/-- Sizes whose product wraps around to 0: the texture has a size but no pixels. -/
theorem wrapped_ub : ∃ t, loadWal exPal (exWal 65536 65536 0 0) false = .ok t ∧ sampleTexture (some t) (0 : ℚ) 0 = .ub := by
  refine ⟨⟨65536, 65536, none, 65536, 65536, [], ⟨0, 0, 0⟩⟩, by decide +kernel, by decide +kernel⟩

/-- The height may be 0: a division by zero. -/
theorem no_height_ub : ∃ t, loadWal exPal (exWal 16 0 0 0) false = .ok t ∧ sampleTexture (some t) (0 : ℚ) 0 = .ub := by
  refine ⟨⟨16, 0, none, 16, 0, [], ⟨0, 0, 0⟩⟩, by decide +kernel, by decide +kernel⟩

/-! ### C152 -/

/-- **C152**: a projected texture whose metadata have its real size: the colour is twice that of the image between the four
pixels around the place, from left to right and from top to bottom. -/
theorem projected_between_partial (t : Texture) (c0 c1 : K) (hf : Full t) (hs : t.w * t.h ≤ 2 ^ 32) (hw : 2 ≤ t.w) (hh : 2 ≤ t.h)
    (hw' : t.w ≤ 2 ^ 31) (hh' : t.h ≤ 2 ^ 31) (hmw : t.mw = t.w) (hmh : t.mh = t.h) (h0 : 0 < c0) (h0' : c0 < 1) (h1 : 0 < c1)
    (h1' : c1 < 1) :
    ∃ (x y : Nat) (s q : K), x + 1 < t.w ∧ y + 1 < t.h ∧ 0 ≤ s ∧ s < 1 ∧ 0 ≤ q ∧ q < 1 ∧
      (x : K) + s = c0 * (t.w - 1) ∧ (y : K) + q = (1 - c1) * (t.h - 1) ∧
      sampleMipTex t true c0 c1 = .ok (some (2 * between t Rgb.r x y s q, 2 * between t Rgb.g x y s q,
        2 * between t Rgb.b x y s q)) := by
  have size : ∀ n : Nat, 2 ≤ n → n ≤ 2 ^ 31 → (((n + (2 ^ 32 - 1)) % 2 ^ 32 : Nat) : K) = (n : K) - 1 := by
    intro n hn hn'
    have : (n + (2 ^ 32 - 1)) % 2 ^ 32 = n - 1 := by omega
    rw [this, Nat.cast_sub (by omega), Nat.cast_one]
  have place : ∀ (n : Nat) (c : K), 2 ≤ n → n ≤ 2 ^ 31 → 0 < c → c < 1 →
      toInt (c * ((n : K) - 1)) = .ok ⌊c * ((n : K) - 1)⌋.toNat ∧ ⌊c * ((n : K) - 1)⌋.toNat + 1 < n ∧
      ((⌊c * ((n : K) - 1)⌋.toNat : Nat) : K) ≤ c * ((n : K) - 1) ∧
      c * ((n : K) - 1) < ((⌊c * ((n : K) - 1)⌋.toNat : Nat) : K) + 1 := by
    intro n c hn hn' hc hc'
    have hn1 : (0 : K) < (n : K) - 1 := by
      have : (2 : K) ≤ (n : K) := by exact_mod_cast hn
      linarith
    have hx0 : 0 ≤ c * ((n : K) - 1) := by positivity
    have hx1 : c * ((n : K) - 1) < (n : K) - 1 := by nlinarith
    have hb : (n : K) ≤ 2 ^ 31 := by exact_mod_cast hn'
    have hfl : 0 ≤ ⌊c * ((n : K) - 1)⌋ := Int.floor_nonneg.mpr hx0
    have hlt : ⌊c * ((n : K) - 1)⌋ < (n : Int) - 1 := Int.floor_lt.mpr (by push_cast; exact hx1)
    have hcast : ((⌊c * ((n : K) - 1)⌋.toNat : Nat) : K) = ((⌊c * ((n : K) - 1)⌋ : Int) : K) := by
      have : ((⌊c * ((n : K) - 1)⌋.toNat : Nat) : Int) = ⌊c * ((n : K) - 1)⌋ := Int.toNat_of_nonneg hfl
      rw [← Int.cast_natCast, this]
    refine ⟨?_, by omega, ?_, ?_⟩
    · unfold toInt; rw [if_pos ⟨hx0, by linarith⟩]
    · rw [hcast]; exact Int.floor_le _
    · rw [hcast]; exact Int.lt_floor_add_one _
  obtain ⟨a1, a2, a3, a4⟩ := place t.w c0 hw hw' h0 h0'
  obtain ⟨b1, b2, b3, b4⟩ := place t.h (1 - c1) hh hh' (by linarith) (by linarith)
  have pixel : ∀ x y : Nat, x < t.w → y < t.h → ∃ p, mipPixel t x y = .ok p ∧ p.rgb = at' t x y := by
    intro x y hx hy
    have hb : x + t.w * y < t.w * t.h := by
      have : t.w * (y + 1) ≤ t.w * t.h := Nat.mul_le_mul_left _ hy
      rw [Nat.mul_succ] at this
      omega
    have hl : x + t.w * y < t.pixels.length := by rw [hf]; exact hb
    unfold mipPixel mod32
    rw [hmw, hmh, if_neg (by omega)]
    simp only [Outcome.ok_bind]
    rw [if_neg (by omega)]
    simp only [Outcome.ok_bind]
    have e : (x % t.w + mul32 t.w (y % t.h)) % 2 ^ 32 = x + t.w * y := by
      rw [Nat.mod_eq_of_lt hx, Nat.mod_eq_of_lt hy]
      unfold mul32
      rw [Nat.mod_eq_of_lt (show t.w * y < 2 ^ 32 by omega), Nat.mod_eq_of_lt (by omega)]
    rw [e]
    refine ⟨t.pixels[x + t.w * y], ?_, ?_⟩
    · simp [Outcome.readAt, List.getElem?_eq_getElem hl]
    · unfold at'
      rw [show y * t.w + x = x + t.w * y by ring, List.getElem?_eq_getElem hl]
      rfl
  generalize ⌊c0 * ((t.w : K) - 1)⌋.toNat = x at *
  generalize ⌊(1 - c1) * ((t.h : K) - 1)⌋.toNat = y at *
  refine ⟨x, y, c0 * ((t.w : K) - 1) - x, (1 - c1) * ((t.h : K) - 1) - y, a2, b2, by linarith, by linarith, by linarith,
    by linarith, by ring, by ring, ?_⟩
  unfold sampleMipTex
  rw [if_neg (by push Not; exact ⟨by simp, h0, h0', h1, h1'⟩)]
  rw [hmw, hmh, size _ hw hw', size _ hh hh']
  simp only
  rw [a1]
  simp only [Outcome.ok_bind]
  rw [b1]
  obtain ⟨p0, hp0, e0⟩ := pixel x y (by omega) (by omega)
  obtain ⟨p1, hp1, e1⟩ := pixel (x + 1) y (by omega) (by omega)
  obtain ⟨p2, hp2, e2⟩ := pixel x (y + 1) (by omega) (by omega)
  obtain ⟨p3, hp3, e3⟩ := pixel (x + 1) (y + 1) (by omega) (by omega)
  simp only [Outcome.ok_bind]
  rw [hp0, hp1, hp2, hp3]
  simp only [Outcome.ok_bind, Outcome.pure_eq, e0, e1, e2, e3]
  generalize c0 * ((t.w : K) - 1) - x = s
  generalize (1 - c1) * ((t.h : K) - 1) - y = q
  have key : ∀ a b c d : Byte, blend s q a b c d =
      2 * lerp q (lerp s (a.toNat : K) (b.toNat : K)) (lerp s (c.toNat : K) (d.toNat : K)) := by
    intro a b c d; unfold blend lerp; ring
  unfold between
  simp only [key]

/-- The colour is between 0 and 510. -/
theorem projected_range_partial (t : Texture) (c : Rgb → Byte) (x y : Nat) (s q : K) (hs : 0 ≤ s) (hs' : s < 1) (hq : 0 ≤ q) (hq' : q < 1) :
    0 ≤ 2 * between t c x y s q ∧ 2 * between t c x y s q ≤ 510 := by
  have key : ∀ u a b : K, 0 ≤ u → u < 1 → 0 ≤ a → a ≤ 255 → 0 ≤ b → b ≤ 255 → 0 ≤ lerp u a b ∧ lerp u a b ≤ 255 := by
    intro u a b h1 h2 h3 h4 h5 h6
    unfold lerp
    constructor <;> nlinarith
  have hb : ∀ b : Byte, (0 : K) ≤ (b.toNat : K) ∧ (b.toNat : K) ≤ 255 := by
    intro b
    refine ⟨by positivity, ?_⟩
    have := b.isLt
    exact_mod_cast (show b.toNat ≤ 255 by omega)
  unfold between
  obtain ⟨l1, l2⟩ := key s _ _ hs hs' (hb (c (at' t x y))).1 (hb _).2 (hb (c (at' t (x + 1) y))).1 (hb _).2
  obtain ⟨l3, l4⟩ := key s _ _ hs hs' (hb (c (at' t x (y + 1)))).1 (hb _).2 (hb (c (at' t (x + 1) (y + 1)))).1 (hb _).2
  obtain ⟨l5, l6⟩ := key q _ _ hq hq' l1 l2 l3 l4
  constructor <;> linarith

omit [IsStrictOrderedRing K] in
/-- Outside of the projection nothing is read. -/
theorem projected_outside (t : Texture) (seen : Bool) (c0 c1 : K)
    (h : seen = false ∨ ¬ (0 < c0 ∧ c0 < 1 ∧ 0 < c1 ∧ c1 < 1)) : sampleMipTex t seen c0 c1 = .ok none := by
  unfold sampleMipTex
  rw [if_pos]
  rcases h with h | h
  · exact .inl h
  · by_contra hc
    push Not at hc
    exact h ⟨hc.2.1, hc.2.2.1, hc.2.2.2.1, hc.2.2.2.2⟩

/-- A replacement image that is smaller than the texture it replaces is read beyond its end: the place is computed from the
size of the original. -/
theorem projected_small_ub : ∃ t, convertTexture (K := ℚ) false exPal 0 (exMip 4 4 40 0 ++ List.replicate 16 1)
      (some ⟨2, 2, none, 2, 2, List.replicate 4 ⟨⟨9, 9, 9⟩, 255⟩, ⟨0, 0, 0⟩⟩) = .ok t ∧ Full t ∧
    sampleMipTex t true (1 / 2 : ℚ) (1 / 2) = .ub := by
  refine ⟨⟨4, 4, none, 2, 2, List.replicate 4 ⟨⟨9, 9, 9⟩, 255⟩, ⟨9, 9, 9⟩⟩, by decide +kernel, rfl, by decide +kernel⟩

/-! ### The hypotheses are met -/

/-- Two by two pixels. -/
def exTex : Texture := ⟨4, 4, none, 2, 2, [⟨⟨1, 1, 1⟩, 255⟩, ⟨⟨2, 2, 2⟩, 255⟩, ⟨⟨3, 3, 3⟩, 255⟩, ⟨⟨4, 4, 4⟩, 255⟩], ⟨2, 2, 2⟩⟩

example : sampleTexture (some exTex) (-1 : ℚ) 2 = .ok ⟨⟨4, 4, 4⟩, 255⟩ := by decide +kernel

example : ∃ p, sampleTexture (some exTex) (-1 : ℚ) 2 = .ok p ∧ tiled exTex ⌊scaled exTex 2 4 (-1 : ℚ)⌋ ⌊scaled exTex 2 4 (2 : ℚ)⌋ = some p :=
  sample_tiled exTex (-1) 2 (by decide) (by decide) rfl (by decide) (by simp [scaled, exTex]; norm_num)
    (by simp [scaled, exTex]; norm_num)

example : ∃ t, convertTexture (K := ℚ) false exPal 0 (exMip 2 2 40 0 ++ [1, 2, 3, 4]) none = .ok t ∧ t.pixels ≠ [] ∧
    t.w * t.h < 2 ^ 32 :=
  ⟨⟨2, 2, none, 2, 2, [⟨⟨1, 1, 1⟩, 255⟩, ⟨⟨2, 2, 2⟩, 255⟩, ⟨⟨3, 3, 3⟩, 255⟩, ⟨⟨4, 4, 4⟩, 255⟩], ⟨2, 2, 2⟩⟩, by decide +kernel,
    by decide, by decide⟩

example : sampleMipTex { exTex with mw := 2, mh := 2 } true (1 / 2 : ℚ) (1 / 4) = .ok (some (6, 6, 6)) := by decide +kernel

end Verif.Textures
