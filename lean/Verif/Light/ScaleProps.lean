import Mathlib.Tactic.Positivity
import Verif.Light.ImageProps

/-!
Properties of the scaling of the computed light, and of the standard lightmap that is made from
a decoupled one.
-/

namespace Verif.Light

theorem le_peak (c : Col) (i : Fin 3) : c i ≤ peak c := by
  unfold peak
  fin_cases i
  · exact le_max_of_le_left (le_max_left _ _)
  · exact le_max_of_le_left (le_max_right _ _)
  · exact le_max_right _ _

theorem peak_le {c : Col} {m : ℚ} (h : ∀ i, c i ≤ m) : peak c ≤ m :=
  max_le (max_le (h 0) (h 1)) (h 2)

theorem peak_nonneg {c : Col} (h : ∀ i, 0 ≤ c i) : 0 ≤ peak c := le_trans (h 0) (le_peak c 0)

/-- The settings are sensible: no negative factors, and the factor for the colours is at most
1.  `pow` gives no negative values. -/
structure Scale.Sane (k : Scale) : Prop where
  maxlight : 0 ≤ k.maxlight
  color0 : 0 ≤ k.colorscale
  color1 : k.colorscale ≤ 1
  range : 0 ≤ k.range
  gamma : ∀ g, k.gamma = some g → ∀ x, 0 ≤ x → 0 ≤ g x

/-- The steps of the scaling before the gamma correction. -/
def preGamma (k : Scale) (c : Col) : Col :=
  let c := fun i => max (c i) 0
  let c := if k.maxlight ≠ 0 ∧ peak c > k.maxlight * 2 then
      fun i => c i * (k.maxlight * 2 / peak c) else c
  let c := if k.colorscale ≠ 1 then
      fun i => peak c * (1 - k.colorscale) + c i * k.colorscale else c
  fun i => c i * k.range

theorem scaleClamp_eq (k : Scale) (c : Col) : scaleClamp k c =
    (let d := match k.gamma with
      | none => preGamma k c
      | some g => fun i => g (preGamma k c i)
    if peak d > 255 then fun i => d i * (255 / peak d) else d) := rfl

theorem limit_nonneg {m : ℚ} {c : Col} (hm : 0 ≤ m) (hc : ∀ i, 0 ≤ c i) :
    ∀ i, 0 ≤ (if m ≠ 0 ∧ peak c > m * 2 then fun i => c i * (m * 2 / peak c) else c) i := by
  intro i
  split
  · exact mul_nonneg (hc i) (div_nonneg (by linarith) (peak_nonneg hc))
  · exact hc i

theorem limit_le {m : ℚ} {c : Col} (hm : 0 < m) :
    ∀ i, (if m ≠ 0 ∧ peak c > m * 2 then fun i => c i * (m * 2 / peak c) else c) i ≤ m * 2 := by
  intro i
  split
  · rename_i h
    have hp : 0 < peak c := by linarith [h.2]
    show c i * (m * 2 / peak c) ≤ m * 2
    rw [← mul_div_assoc, div_le_iff₀ hp, mul_comm]
    exact mul_le_mul_of_nonneg_left (le_peak c i) (by linarith)
  · rename_i h
    push Not at h
    exact le_trans (le_peak c i) (h (ne_of_gt hm))

theorem color_nonneg {s : ℚ} {c : Col} (h0 : 0 ≤ s) (h1 : s ≤ 1) (hc : ∀ i, 0 ≤ c i) :
    ∀ i, 0 ≤ (if s ≠ 1 then fun i => peak c * (1 - s) + c i * s else c) i := by
  intro i
  split
  · exact add_nonneg (mul_nonneg (peak_nonneg hc) (by linarith)) (mul_nonneg (hc i) h0)
  · exact hc i

theorem color_le {s m : ℚ} {c : Col} (h0 : 0 ≤ s) (h1 : s ≤ 1) (hc : ∀ i, c i ≤ m) :
    ∀ i, (if s ≠ 1 then fun i => peak c * (1 - s) + c i * s else c) i ≤ m := by
  intro i
  split
  · have h2 := mul_le_mul_of_nonneg_right (peak_le hc) (show (0 : ℚ) ≤ 1 - s by linarith)
    have h3 := mul_le_mul_of_nonneg_right (hc i) h0
    show peak c * (1 - s) + c i * s ≤ m
    have h4 : m = m * (1 - s) + m * s := by ring
    linarith
  · exact hc i

theorem preGamma_nonneg {k : Scale} (hk : k.Sane) (c : Col) : ∀ i, 0 ≤ preGamma k c i := by
  intro i
  unfold preGamma
  refine mul_nonneg ?_ hk.range
  exact color_nonneg hk.color0 hk.color1 (limit_nonneg hk.maxlight (fun _ => le_max_right _ _)) i

/-- **C118.** With sensible settings, the scaled light is between 0 and 255 for whatever light
was computed. -/
theorem scaled_in_range {k : Scale} (hk : k.Sane) (c : Col) (i : Fin 3) :
    0 ≤ scaleClamp k c i ∧ scaleClamp k c i ≤ 255 := by
  rw [scaleClamp_eq]
  have hd : ∀ i, 0 ≤ (match k.gamma with
      | none => preGamma k c
      | some g => fun i => g (preGamma k c i)) i := by
    intro i
    cases hg : k.gamma with
    | none => exact preGamma_nonneg hk c i
    | some g => exact hk.gamma g hg _ (preGamma_nonneg hk c i)
  generalize (match k.gamma with
      | none => preGamma k c
      | some g => fun i => g (preGamma k c i)) = d at hd
  simp only
  split
  · rename_i hp
    have hpos : 0 < peak d := by linarith
    refine ⟨mul_nonneg (hd i) (div_nonneg (by norm_num) (le_of_lt hpos)), ?_⟩
    show d i * (255 / peak d) ≤ 255
    rw [← mul_div_assoc, div_le_iff₀ hpos, mul_comm]
    exact mul_le_mul_of_nonneg_left (le_peak d i) (by norm_num)
  · rename_i hp
    exact ⟨hd i, le_trans (le_peak d i) (not_lt.1 hp)⟩

/-- **C118.** `_maxlight` limits the light: no channel is above twice the limit, times the
factor of `-range`. -/
theorem scaled_maxlight {k : Scale} (hk : k.Sane) (hm : 0 < k.maxlight) (hg : k.gamma = none)
    (c : Col) (i : Fin 3) : scaleClamp k c i ≤ k.maxlight * 2 * k.range := by
  have hpre : ∀ i, preGamma k c i ≤ k.maxlight * 2 * k.range := by
    intro i
    unfold preGamma
    exact mul_le_mul_of_nonneg_right (color_le hk.color0 hk.color1
      (limit_le hm) i) hk.range
  rw [scaleClamp_eq, hg]
  simp only
  split
  · rename_i hp
    have hpos : 0 < peak (preGamma k c) := by linarith
    refine le_trans ?_ (hpre i)
    show preGamma k c i * (255 / peak (preGamma k c)) ≤ preGamma k c i
    rw [← mul_div_assoc, div_le_iff₀ hpos]
    exact mul_le_mul_of_nonneg_left (le_of_lt hp) (preGamma_nonneg hk c i)
  · exact hpre i

/-- **C118.** Without gamma correction and scaling of colours, the channels of a sample keep
their ratio: all are multiplied by the same factor, which is the one of `-range` if the light
needs no limitation. -/
theorem scaled_ratio {k : Scale} (hk : k.Sane) (hg : k.gamma = none) (hs : k.colorscale = 1)
    {c : Col} (hc : ∀ i, 0 ≤ c i) :
    ∃ f, 0 ≤ f ∧ f ≤ k.range ∧ (∀ i, scaleClamp k c i = c i * f) ∧
      ((k.maxlight = 0 ∨ ∀ i, c i ≤ k.maxlight * 2) → (∀ i, c i * k.range ≤ 255) →
        f = k.range) := by
  have h0 : (fun i => max (c i) 0) = c := by
    funext i; exact max_eq_left (hc i)
  obtain ⟨g, hg0, hg1, hge, hgk⟩ : ∃ g, 0 ≤ g ∧ g ≤ 1 ∧
      (if k.maxlight ≠ 0 ∧ peak c > k.maxlight * 2 then
        fun i => c i * (k.maxlight * 2 / peak c) else c) = (fun i => c i * g) ∧
      ((k.maxlight = 0 ∨ ∀ i, c i ≤ k.maxlight * 2) → g = 1) := by
    split
    · rename_i h
      have hp : 0 < peak c := by linarith [h.2, hk.maxlight]
      refine ⟨k.maxlight * 2 / peak c, div_nonneg (by linarith [hk.maxlight]) (le_of_lt hp), ?_, rfl,
        ?_⟩
      · rw [div_le_iff₀ hp]; linarith [h.2]
      · rintro (h1 | h1)
        · exact absurd h1 h.1
        · exact absurd (peak_le h1) (not_le.2 h.2)
    · exact ⟨1, by norm_num, le_refl _, by simp, fun _ => rfl⟩
  have hpre : preGamma k c = fun i => c i * (g * k.range) := by
    have hs' : ¬ k.colorscale ≠ 1 := fun h => h hs
    unfold preGamma
    rw [h0]
    simp only [if_neg hs']
    funext i
    rw [congrFun hge i]
    ring
  have hgr0 : 0 ≤ g * k.range := mul_nonneg hg0 hk.range
  have hgr1 : g * k.range ≤ k.range := by
    have := mul_le_mul_of_nonneg_right hg1 hk.range
    linarith
  rw [scaleClamp_eq, hg]
  simp only
  split
  · rename_i hp
    have hpos : 0 < peak (preGamma k c) := by linarith
    have hq : 255 / peak (preGamma k c) ≤ 1 := by rw [div_le_iff₀ hpos]; linarith
    have hq0 : 0 ≤ 255 / peak (preGamma k c) := div_nonneg (by norm_num) (le_of_lt hpos)
    refine ⟨g * k.range * (255 / peak (preGamma k c)), mul_nonneg hgr0 hq0, ?_, ?_, ?_⟩
    · refine le_trans ?_ hgr1
      exact mul_le_of_le_one_right hgr0 hq
    · intro i
      rw [hpre]
      ring
    · intro h1 h2
      exfalso
      rw [hpre, hgk h1] at hp
      have := peak_le (c := fun i => c i * (1 * k.range)) (m := 255) (fun i => by
        have := h2 i; simpa using this)
      linarith
  · refine ⟨g * k.range, hgr0, hgr1, fun i => by rw [hpre], ?_⟩
    intro h1 _
    rw [hgk h1, one_mul]

/-- **C118.** With sensible settings, the lightmap of any computed light is written without an
exception and without undefined behaviour. -/
theorem any_light_written {sc : Scale} (hsc : sc.Sane) {k : ImgCfg} {n aw ah ow oh : Nat}
    {light dir : List Px} (he : 1 ≤ k.extra) (hw : 0 < aw) (hh : 0 < ah)
    (hc : light.length = (aw * k.extra) * (ah * k.extra))
    (hd : dir.length = (aw * k.extra) * (ah * k.extra)) (hn : light.length < n) :
    ∃ r, writeSingle k n aw ah ow oh
        (light.map fun p => { p with col := scaleClamp sc p.col }) dir = some (.ok r) ∧
      r.Sized (ow * oh) := by
  obtain ⟨r, hr, hwr⟩ := lightmap_written (k := k) (n := n) (ow := ow) (oh := oh)
    (col := light.map fun p => { p with col := scaleClamp sc p.col }) (dir := dir) he hw hh
    (by simpa using hc) hd (by
      intro p hp ch
      obtain ⟨q, _, rfl⟩ := List.mem_map.1 hp
      exact scaled_in_range hsc q.col ch) (by simpa using hn)
  exact ⟨r, hr, hwr.sized⟩

/-! ### The standard lightmap beside a decoupled one -/

theorem mix_between {a b : Col} {f : ℚ} {i : Fin 3} {lo hi : ℚ} (h0 : 0 ≤ f) (h1 : f ≤ 1)
    (ha : lo ≤ a i ∧ a i ≤ hi) (hb : lo ≤ b i ∧ b i ≤ hi) :
    lo ≤ mix a b f i ∧ mix a b f i ≤ hi := by
  unfold mix
  have h2 : (0 : ℚ) ≤ 1 - f := by linarith
  have e1 : lo = lo * (1 - f) + lo * f := by ring
  have e2 : hi = hi * (1 - f) + hi * f := by ring
  constructor
  · have := mul_le_mul_of_nonneg_right ha.1 h2
    have := mul_le_mul_of_nonneg_right hb.1 h0
    linarith
  · have := mul_le_mul_of_nonneg_right ha.2 h2
    have := mul_le_mul_of_nonneg_right hb.2 h0
    linarith

theorem trunc_frac {u : ℚ} (h : 0 ≤ u) : 0 ≤ u - truncInt u ∧ u - truncInt u ≤ 1 := by
  unfold truncInt
  rw [if_pos h]
  have h1 : ((u.floor : Int) : ℚ) ≤ u := Int.floor_le u
  have h2 : u < (u.floor : Int) + 1 := Int.lt_floor_add_one u
  constructor <;> linarith

theorem texel_ok {w h : Nat} (hw : 0 < w) (hh : 0 < h) {img : List Px} (hl : img.length = w * h)
    (x y : Int) : ∃ p ∈ img, texel w h img x y = .ok p.col := by
  have hi : clampTo h y * w + clampTo w x < img.length := by
    rw [hl]; exact index_lt (clampTo_lt hw x) (clampTo_lt hh y)
  refine ⟨img[clampTo h y * w + clampTo w x], List.getElem_mem hi, ?_⟩
  unfold texel
  rw [List.getElem?_eq_getElem hi]

/-- The interpolated colour is defined; at positions that are not negative it is between the
colours of the samples. -/
theorem bilinear_ok {w h : Nat} (hw : 0 < w) (hh : 0 < h) {img : List Px}
    (hl : img.length = w * h) (u v : ℚ) :
    ∃ c, bilinear w h img u v = .ok c ∧
      (0 ≤ u → 0 ≤ v → ∀ ch lo hi, AllBetween ch lo hi img → lo ≤ c ch ∧ c ch ≤ hi) := by
  obtain ⟨p1, m1, e1⟩ := texel_ok hw hh hl (truncInt u) (truncInt v)
  obtain ⟨p2, m2, e2⟩ := texel_ok hw hh hl (truncInt u + 1) (truncInt v)
  obtain ⟨p3, m3, e3⟩ := texel_ok hw hh hl (truncInt u) (truncInt v + 1)
  obtain ⟨p4, m4, e4⟩ := texel_ok hw hh hl (truncInt u + 1) (truncInt v + 1)
  refine ⟨mix (mix p1.col p2.col (u - truncInt u)) (mix p3.col p4.col (u - truncInt u))
    (v - truncInt v), ?_, ?_⟩
  · unfold bilinear
    simp only [e1, e2, e3, e4, Outcome.ok_bind, Outcome.pure_eq]
  · intro hu hv ch lo hi hb
    obtain ⟨a0, a1⟩ := trunc_frac hu
    obtain ⟨b0, b1⟩ := trunc_frac hv
    exact mix_between b0 b1 (mix_between a0 a1 (hb p1 m1) (hb p2 m2))
      (mix_between a0 a1 (hb p3 m3) (hb p4 m4))

/-- **C119.** The coloured standard lightmap beside a decoupled one is written without undefined
behaviour, has the right size, and its colours are between those of the samples.  (Partial: if
no sample of it lies before the first sample of the decoupled one.) -/
theorem decoupled_written_partial {w h ow oh : Nat} (hw : 0 < w) (hh : 0 < h) {img : List Px}
    (hl : img.length = w * h) (hb : ∀ p ∈ img, ∀ ch, 0 ≤ p.col ch ∧ p.col ch ≤ 255)
    {pos : Nat × Nat → ℚ × ℚ}
    (hpos : ∀ x y, x < ow → y < oh → 0 ≤ (pos (x, y)).1 ∧ 0 ≤ (pos (x, y)).2) :
    ∃ r, writeDecoupled w h ow oh pos img = .ok r ∧ r.Sized (ow * oh) ∧
      ∀ (ch : Fin 3) (lo hi : ℚ), (∀ p ∈ img, lo ≤ p.col ch ∧ p.col ch ≤ hi) →
        ∀ (i : Nat) (v : UInt8), r.rgb[3 * i + ch]? = some v →
          lo.floor.toNat ≤ v.toNat ∧ v.toNat ≤ hi.floor.toNat := by
  have hbody : ∀ p ∈ coords ow oh, ∃ c : Col, (∀ ch lo hi, AllBetween ch lo hi img →
      lo ≤ c ch ∧ c ch ≤ hi) ∧ (do
        let c ← bilinear w h img (pos p).1 (pos p).2
        let r ← toByte (c 0)
        let g ← toByte (c 1)
        let b ← toByte (c 2)
        pure [r, g, b]) = Outcome.ok [UInt8.ofNat (c 0).floor.toNat,
          UInt8.ofNat (c 1).floor.toNat, UInt8.ofNat (c 2).floor.toNat] := by
    intro p hp
    obtain ⟨hx, hy⟩ := mem_coords.1 hp
    obtain ⟨c, hc, hcb⟩ := bilinear_ok hw hh hl (pos p).1 (pos p).2
    obtain ⟨h1, h2⟩ := hpos p.1 p.2 hx hy
    have hcb := hcb h1 h2
    have hcr : ∀ ch, 0 ≤ c ch ∧ c ch ≤ 255 := fun ch => hcb ch 0 255 (fun q hq => hb q hq ch)
    refine ⟨c, hcb, ?_⟩
    simp only [hc, Outcome.ok_bind, (toByte_ok (hcr 0).1 (hcr 0).2).1,
      (toByte_ok (hcr 1).1 (hcr 1).2).1, (toByte_ok (hcr 2).1 (hcr 2).2).1, Outcome.pure_eq]
  obtain ⟨l, hl'⟩ := each_exists (l := coords ow oh) (fun p hp => by
    obtain ⟨c, _, h⟩ := hbody p hp
    exact ⟨_, h⟩)
  have hlen := each_length hl'
  rw [coords_length] at hlen
  have hthree : ∀ e ∈ l, e.length = 3 := by
    intro e he
    obtain ⟨p, hp, hpe⟩ := each_mem hl' he
    obtain ⟨c, _, h⟩ := hbody p hp
    rw [h, Outcome.ok.injEq] at hpe
    subst hpe; rfl
  have hflat : l.flatten = l.flatMap fun x => x := by simp [List.flatMap_def]
  refine ⟨⟨List.replicate (ow * oh) 0, l.flatten, List.replicate (3 * (ow * oh)) 0⟩, ?_, ?_, ?_⟩
  · unfold writeDecoupled
    rw [hl']
    rfl
  · refine ⟨by simp, ?_, by simp⟩
    show l.flatten.length = _
    rw [hflat, flatMap_length (n := 3) hthree, hlen]
  · intro ch lo hi hcb i v hv
    change l.flatten[3 * i + ch]? = some v at hv
    have hi' : i < ow * oh := by
      have h1 := (List.getElem?_eq_some_iff.1 hv).1
      rw [hflat, flatMap_length (n := 3) hthree, hlen] at h1
      omega
    obtain ⟨x, y, hx, hy, rfl⟩ := exists_coords hi'
    obtain ⟨e, he, hpe⟩ := each_get hl' (coords_get hx hy)
    obtain ⟨c, hcb', h⟩ := hbody (x, y) (mem_coords.2 ⟨hx, hy⟩)
    rw [h, Outcome.ok.injEq] at hpe
    subst hpe
    rw [hflat, flatMap_three hthree he ch ch.isLt] at hv
    have hc := hcb' ch lo hi hcb
    have hc' := hcb' ch 0 255 (fun q hq => hb q hq ch)
    have hvv : v = UInt8.ofNat (c ch).floor.toNat := by
      fin_cases ch <;> simpa using hv.symm
    rw [hvv, (toByte_ok hc'.1 hc'.2).2]
    exact ⟨floor_mono hc.1, floor_mono hc.2⟩

/-- **C119 (finding).** The greyscale of this lightmap is black, whatever the light is. -/
theorem decoupled_black {w h ow oh : Nat} {img : List Px} {pos : Nat × Nat → ℚ × ℚ} {r : Image}
    (hr : writeDecoupled w h ow oh pos img = .ok r) : ∀ y ∈ r.grey, y = 0 := by
  unfold writeDecoupled at hr
  obtain ⟨l, _, hr⟩ := Outcome.bind_eq_ok.1 hr
  simp only [Outcome.pure_eq, Outcome.ok.injEq] at hr
  subst hr
  intro y hy
  exact List.eq_of_mem_replicate hy

end Verif.Light
