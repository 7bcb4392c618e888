import Verif.TexDef.Lemmas

/-!
The shift that is written, and the axes of brush primitives.
-/

namespace Verif.TexDef

open Geom TexDef.Spec

variable {K : Type} [Field K] [LinearOrder K] [IsStrictOrderedRing K]

/-- The multiple of the width that is subtracted does not overflow. -/
theorem whole_toNat (q w : BitVec 32) : (q / w * w).toNat = q.toNat / w.toNat * w.toNat := by
  rw [BitVec.toNat_mul, BitVec.toNat_udiv]
  refine Nat.mod_eq_of_lt (lt_of_le_of_lt (Nat.div_mul_le_self _ _) q.isLt)

theorem width_pos {w : BitVec 32} (hw : w ≠ 0) : 0 < w.toNat := by
  rcases Nat.eq_zero_or_pos w.toNat with h | h
  · exact absurd (BitVec.eq_of_toNat_eq h) hw
  · exact h

/-- A shift that is not negative is reduced to the width. -/
theorem normalize_pos {env : Env K} (hf : Floats env) {w : BitVec 32} (hw : w ≠ 0) {x : K} (h0 : 0 ≤ x) (h1 : x < 2 ^ 24)
    (hx : env.fl x = x) :
    ∃ y, normalizeOne env w x = .ok y ∧ 0 ≤ y ∧ y < (w.toNat : K) ∧ ∃ k : Nat, y = x - (k : K) * (w.toNat : K) := by
  have hlt : x < 2 ^ 31 := lt_trans h1 (by norm_num)
  obtain ⟨k, hk, h2, h3⟩ := hf.trunc_pos x h0 hlt
  have hk24 : k < 2 ^ 24 := by
    have : (k : K) < ((2 ^ 24 : Nat) : K) := lt_of_le_of_lt h2 (lt_of_lt_of_eq h1 (by norm_num))
    exact_mod_cast this
  have hn : (BitVec.ofInt 32 (k : Int)).toNat = k := by
    rw [BitVec.ofInt_natCast, BitVec.toNat_ofNat]
    exact Nat.mod_eq_of_lt (by omega)
  have hp := width_pos hw
  have hle : k / w.toNat * w.toNat ≤ k := Nat.div_mul_le_self _ _
  have hleK : ((k / w.toNat * w.toNat : Nat) : K) ≤ x := le_trans (by exact_mod_cast hle) h2
  have hlow : k < k / w.toNat * w.toNat + w.toNat := by
    have := Nat.div_add_mod' k w.toNat
    have := Nat.mod_lt k hp
    omega
  have hlowK : (k : K) + 1 ≤ ((k / w.toNat * w.toNat : Nat) : K) + (w.toNat : K) := by exact_mod_cast hlow
  refine ⟨x - ((k / w.toNat * w.toNat : Nat) : K), ?_, by linarith, by linarith, k / w.toNat, by push_cast; ring⟩
  unfold normalizeOne
  rw [if_neg hw, hk]
  simp only [whole_toNat, hn]
  rw [hf.int _ (by omega), hf.sub x _ hx h1 hleK]

/-- A negative shift becomes a multiple of 128. -/
theorem normalize_neg {env : Env K} (hf : Floats env) {w : BitVec 32} (hw : w.toNat ∣ 128) {x : K} (h0 : x ≤ -1)
    (h1 : -2 ^ 31 < x) : ∃ (y : K) (z : Int), normalizeOne env w x = .ok y ∧ y = (w.toNat : K) * (z : K) := by
  obtain ⟨k, hk, h2, h3⟩ := hf.trunc_neg x (by linarith) h1
  have hk1 : 1 ≤ k := by
    by_contra hc
    have : k = 0 := by omega
    rw [this] at h3
    push_cast at h3
    linarith
  have hk31 : k < 2 ^ 31 := by
    have : (k : K) < ((2 ^ 31 : Nat) : K) := lt_of_le_of_lt h2 (by push_cast; linarith)
    exact_mod_cast this
  have hw0 : w ≠ 0 := by
    rintro rfl
    revert hw
    decide +kernel
  have hn : (BitVec.ofInt 32 (-(k : Int))).toNat = 2 ^ 32 - k := by
    rw [BitVec.toNat_ofInt]
    omega
  obtain ⟨c, hc⟩ := hw
  have hp := width_pos hw0
  have hlow : 2 ^ 31 ≤ (2 ^ 32 - k) / w.toNat * w.toNat := by
    have a : 2 ^ 31 / w.toNat * w.toNat = 2 ^ 31 := Nat.div_mul_cancel ⟨c * 2 ^ 24, by rw [← Nat.mul_assoc, ← hc]; norm_num⟩
    calc 2 ^ 31 = 2 ^ 31 / w.toNat * w.toNat := a.symm
      _ ≤ _ := Nat.mul_le_mul_right _ (Nat.div_le_div_right (by omega))
  have hlowK : (2 ^ 31 : K) ≤ (((2 ^ 32 - k) / w.toNat * w.toNat : Nat) : K) := by exact_mod_cast hlow
  have hl := hf.large _ hlowK
  have hlast : 2 ^ 31 ≤ |x - env.fl (((2 ^ 32 - k) / w.toNat * w.toNat : Nat) : K)| := by
    rw [le_abs]
    right
    linarith
  obtain ⟨z, hz⟩ := hf.coarse _ hlast
  refine ⟨env.fl (x - env.fl (((2 ^ 32 - k) / w.toNat * w.toNat : Nat) : K)), (c : Int) * z, ?_, ?_⟩
  · unfold normalizeOne
    rw [if_neg hw0, hk]
    simp only [whole_toNat, hn]
  · rw [hz]
    have : (128 : K) = (w.toNat : K) * (c : K) := by exact_mod_cast hc
    rw [this]
    push_cast
    ring

/-- The axes of brush primitives: `c` and `s` are the direction of the normal seen from above, `h` is its horizontal part. -/
theorem axisBase_eq {env : Env K} (hm : Maths env) {eps : K} {n : Vec K} (hc : clean eps n = n) (hn : dot n n = 1) :
    ∃ c s h : K, c * c + s * s = 1 ∧ h * h + n.z * n.z = 1 ∧ 0 ≤ h ∧ n.x = h * c ∧ n.y = h * s ∧
      axisBase env eps n = (⟨-s, c, 0⟩, ⟨n.z * c, n.z * s, -h⟩) := by
  have hs : env.hyp n.y n.x = env.hyp n.x n.y := by
    have a := hm.hyp_sq n.y n.x
    have b := hm.hyp_sq n.x n.y
    have : (env.hyp n.y n.x - env.hyp n.x n.y) * (env.hyp n.y n.x + env.hyp n.x n.y) = 0 := by linear_combination a - b
    rcases mul_eq_zero.1 this with h | h
    · linear_combination h
    · have := hm.hyp_nonneg n.y n.x
      have := hm.hyp_nonneg n.x n.y
      linarith
  have hq : env.hyp n.x n.y * env.hyp n.x n.y + n.z * n.z = 1 := by
    rw [hm.hyp_sq]
    exact hn
  obtain ⟨k1, k2⟩ := ang_unit hm hq
  refine ⟨env.cosd (env.angd n.y n.x), env.sind (env.angd n.y n.x), env.hyp n.x n.y, hm.circle _, hq, hm.hyp_nonneg _ _, ?_, ?_, ?_⟩
  · rw [mul_comm]
    exact (hm.cos_ang _ _).symm
  · rw [mul_comm]
    exact (hm.sin_ang _ _).symm
  · unfold axisBase
    simp only [hc, hs, hm.sin_neg, hm.cos_neg, k1, k2, neg_neg]

/-- The row for s that QuArK's definitions get from the two edges, scaled. -/
def rowS (u v : Vec K) : Vec K :=
  let det := dot u u * dot v v - dot u v * dot u v
  ⟨(dot v v * u.x - dot u v * v.x) / det, (dot v v * u.y - dot u v * v.y) / det, (dot v v * u.z - dot u v * v.z) / det⟩

/-- The row for t. -/
def rowT (u v : Vec K) : Vec K :=
  let det := dot u u * dot v v - dot u v * dot u v
  ⟨-(dot u u * v.x - dot u v * u.x) / det, -(dot u u * v.y - dot u v * u.y) / det, -(dot u u * v.z - dot u v * u.z) / det⟩

omit [LinearOrder K] [IsStrictOrderedRing K] in
theorem rows_dual {u v : Vec K} (h : dot u u * dot v v - dot u v * dot u v ≠ 0) :
    dot (rowS u v) u = 1 ∧ dot (rowS u v) v = 0 ∧ dot (rowT u v) u = 0 ∧ dot (rowT u v) v = -1 := by
  have e1 : dot (rowS u v) u = (dot u u * dot v v - dot u v * dot u v) / (dot u u * dot v v - dot u v * dot u v) := by
    have g : ∀ e : K, dot ⟨(dot v v * u.x - dot u v * v.x) / e, (dot v v * u.y - dot u v * v.y) / e,
        (dot v v * u.z - dot u v * v.z) / e⟩ u = (dot u u * dot v v - dot u v * dot u v) / e := by
      intro e
      simp only [dot]
      ring
    exact g _
  have e2 : dot (rowS u v) v = 0 / (dot u u * dot v v - dot u v * dot u v) := by
    unfold rowS
    generalize dot u u * dot v v - dot u v * dot u v = e
    simp only [dot]
    ring
  have e3 : dot (rowT u v) u = 0 / (dot u u * dot v v - dot u v * dot u v) := by
    unfold rowT
    generalize dot u u * dot v v - dot u v * dot u v = e
    simp only [dot]
    ring
  have e4 : dot (rowT u v) v = -((dot u u * dot v v - dot u v * dot u v) / (dot u u * dot v v - dot u v * dot u v)) := by
    have g : ∀ e : K, dot ⟨-(dot u u * v.x - dot u v * u.x) / e, -(dot u u * v.y - dot u v * u.y) / e,
        -(dot u u * v.z - dot u v * u.z) / e⟩ v = -((dot u u * dot v v - dot u v * dot u v) / e) := by
      intro e
      simp only [dot]
      ring
    exact g _
  rw [div_self h] at e1 e4
  rw [zero_div] at e2 e3
  exact ⟨e1, e2, e3, e4⟩

omit [LinearOrder K] [IsStrictOrderedRing K] in
theorem rows_flat (u v : Vec K) : dot (rowS u v) (BrushBsp.cross u v) = 0 ∧ dot (rowT u v) (BrushBsp.cross u v) = 0 := by
  constructor
  · unfold rowS
    generalize dot u u * dot v v - dot u v * dot u v = e
    simp only [dot, BrushBsp.cross]
    ring
  · unfold rowT
    generalize dot u u * dot v v - dot u v * dot u v = e
    simp only [dot, BrushBsp.cross]
    ring

/-- A 128th of a vector. -/
def small (a : Vec K) : Vec K := ⟨a.x * (1 / 128), a.y * (1 / 128), a.z * (1 / 128)⟩

/-- The coordinates QuArK's definitions give. -/
theorem quark_uv {eps : K} (he : 0 < eps) (second : Bool) {p0 p1 p2 a b : Vec K}
    (ha : a = if second then Place.sub p1 p0 else Place.sub p2 p0) (hb : b = if second then Place.sub p2 p0 else Place.sub p1 p0)
    (hd : eps * (128 * 128 * (128 * 128)) ≤ dot a a * dot b b - dot a b * dot a b) :
    dot (small a) (small a) * dot (small b) (small b) - dot (small a) (small b) * dot (small a) (small b) ≠ 0 ∧
    ∀ p, (quark eps second p0 p1 p2).uvs p =
      (dot (rowS (small a) (small b)) (Place.sub p p0), dot (rowT (small a) (small b)) (Place.sub p p0)) := by
  have h1 : eps ≤ dot (small a) (small a) * dot (small b) (small b) - dot (small a) (small b) * dot (small a) (small b) := by
    have h2 : (dot (small a) (small a) * dot (small b) (small b) - dot (small a) (small b) * dot (small a) (small b)) *
        (128 * 128 * (128 * 128)) = dot a a * dot b b - dot a b * dot a b := by
      simp only [small, dot]
      ring
    rw [← h2] at hd
    exact le_of_mul_le_mul_right hd (by norm_num)
  have h2 : 0 < dot (small a) (small a) * dot (small b) (small b) - dot (small a) (small b) * dot (small a) (small b) :=
    lt_of_lt_of_le he h1
  refine ⟨ne_of_gt h2, fun p => ?_⟩
  have h3 : ¬ |dot (small a) (small a) * dot (small b) (small b) - dot (small a) (small b) * dot (small a) (small b)| < eps := by
    rw [abs_of_pos h2]
    exact not_lt.2 h1
  have h4 : quark eps second p0 p1 p2 =
      ⟨⟨rowS (small a) (small b), -dot (rowS (small a) (small b)) p0⟩, ⟨rowT (small a) (small b), -dot (rowT (small a) (small b)) p0⟩⟩ := by
    unfold quark
    simp only [← ha, ← hb]
    have : ∀ v : Vec K, (⟨v.x * (1 / 128), v.y * (1 / 128), v.z * (1 / 128)⟩ : Vec K) = small v := fun _ => rfl
    simp only [this, if_neg h3]
    rfl
  rw [h4]
  generalize rowS (small a) (small b) = s
  generalize rowT (small a) (small b) = t
  simp only [Tex.uvs, dot, Place.sub, Prod.mk.injEq]
  constructor <;> ring

end Verif.TexDef
