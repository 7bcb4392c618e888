import Verif.Shadow.Spec

/-!
Helpers for C212 and C213.
-/

namespace Verif.Shadow

open Spec

theorem shares_iff (a b : Mask) : Shares a b ↔ a &&& b ≠ 0 := by
  constructor
  · rintro ⟨i, h1, h2⟩ h
    have : (a &&& b).getLsbD i = true := by rw [BitVec.getLsbD_and, h1, h2]; rfl
    rw [h] at this
    simp at this
  · intro h
    by_contra hc
    apply h
    apply BitVec.eq_of_getLsbD_eq
    intro i hi
    rw [BitVec.getLsbD_and]
    by_cases h1 : a.getLsbD i = true
    · by_cases h2 : b.getLsbD i = true
      · exact absurd ⟨i, h1, h2⟩ hc
      · simp [h2]
    · simp [h1]

theorem shares_one : Shares 1 1 := ⟨0, by decide, by decide⟩

theorem lower_eq {c d : UInt8} (hd : 97 ≤ d ∧ d ≤ 122) : lower c = d ↔ c = d ∨ c = d - 32 := by
  unfold lower
  obtain ⟨h1, h2⟩ := hd
  rw [UInt8.le_iff_toNat_le] at h1 h2
  have e1 : (97 : UInt8).toNat = 97 := rfl
  have e2 : (122 : UInt8).toNat = 122 := rfl
  have e3 : (65 : UInt8).toNat = 65 := rfl
  have e4 : (90 : UInt8).toNat = 90 := rfl
  have e5 : (32 : UInt8).toNat = 32 := rfl
  have hs : (d - 32).toNat = d.toNat - 32 := by
    rw [UInt8.toNat_sub_of_le _ _ (by rw [UInt8.le_iff_toNat_le]; omega)]; rfl
  split_ifs with h
  · obtain ⟨h3, h4⟩ := h
    rw [UInt8.le_iff_toNat_le] at h3 h4
    have ha : (c + 32).toNat = c.toNat + 32 := by
      rw [UInt8.toNat_add, e5]; omega
    rw [← UInt8.toNat_inj, ← UInt8.toNat_inj, ← UInt8.toNat_inj, ha, hs]
    omega
  · rw [UInt8.le_iff_toNat_le, UInt8.le_iff_toNat_le] at h
    rw [← UInt8.toNat_inj, ← UInt8.toNat_inj (a := c) (b := d - 32), hs]
    omega

theorem begins_sky (s : Cmdlib.Str) : begins [115, 107, 121] s = true ↔
    ∃ a b c l, s = a :: b :: c :: l ∧ (a = 115 ∨ a = 83) ∧ (b = 107 ∨ b = 75) ∧ (c = 121 ∨ c = 89) := by
  unfold begins
  have k1 : ∀ c, lower c = 115 ↔ c = 115 ∨ c = 83 := fun c => lower_eq (by decide)
  have k2 : ∀ c, lower c = 107 ↔ c = 107 ∨ c = 75 := fun c => lower_eq (by decide)
  have k3 : ∀ c, lower c = 121 ↔ c = 121 ∨ c = 89 := fun c => lower_eq (by decide)
  match s with
  | [] => simp
  | [a] => simp
  | [a, b] => simp
  | a :: b :: c :: l =>
    simp [k1, k2, k3]

theorem special_iff (m : Mdl) (f : Fc) : Special m f ↔ (m.mask != 1 || f.mask.getD 1 != 1) = true := by
  unfold Special
  rcases f.mask with _ | k <;> simp

theorem passable_iff (g : Game) (m : Mdl) (f : Fc) : Passable g m f ↔
    (decide (faceAlpha g m f < 1) || (g.q2 && (f.alphatest || f.trans33 || f.trans66))) = true ∨ (f.name.head? == some 123) = true := by
  unfold Passable
  simp [or_assoc]

theorem sky_iff (g : Game) (f : Fc) : Sky g f ↔ (g.q2 && f.sky && (!g.arghrad || (f.light && f.value != 0))) = true ∨
    (!g.q2 && begins [115, 107, 121] f.name) = true := by
  unfold Sky
  cases g.q2
  · simp [begins_sky]
  · cases g.arghrad <;> simp

theorem liquid_iff (g : Game) (f : Fc) : Liquid g f ↔ liquid g f = true := by
  unfold Liquid liquid
  cases g.q2 <;> simp [or_assoc]

theorem casts_iff (m : Mdl) : Casts m ↔
    (!(m.isWorld || m.shadow || m.shadowself || m.shadowworldonly || m.switchable || m.mask != 1)) = false := by
  unfold Casts
  cases m.isWorld <;> cases m.shadow <;> cases m.shadowself <;> cases m.shadowworldonly <;> cases m.switchable <;> simp

theorem hidden_iff (g : Game) (f : Fc) : Hidden g f ↔ (g.q2 && f.nodraw && !f.sky) = true := by
  unfold Hidden
  simp [and_assoc]

theorem glass_iff (g : Game) (m : Mdl) (f : Fc) : Glass g m f ↔ (triinfo g m f).glass = true := by
  unfold Glass triinfo
  cases g.q2 <;> simp

theorem fence_iff (g : Game) (m : Mdl) (f : Fc) : Fence g f ↔ (triinfo g m f).fence = true := by
  unfold Fence triinfo
  cases g.q2 <;> simp

/-- Where a face is put, in the words of the specification. -/
theorem classify_cases (g : Game) (m : Mdl) (f : Fc) :
    (classify g m f = .ok .nowhere ∧ (¬ Casts m ∨ f.noShadow = true ∨ (m.switchable = false ∧ ¬ Special m f ∧ Hidden g f) ∨
      (m.switchable = false ∧ ¬ Special m f ∧ ¬ Hidden g f ∧ ¬ Passable g m f ∧ ¬ Sky g f ∧ Liquid g f ∧ m.isWorld = true))) ∨
    (classify g m f = .ok .filter ∧ Casts m ∧ f.noShadow = false ∧ (m.switchable = true ∨ Special m f ∨ ¬ Hidden g f) ∧
      (m.switchable = true ∨ Special m f ∨ Passable g m f ∨
        (¬ Sky g f ∧ ¬ Liquid g f ∧ m.isWorld = false ∧ m.shadow = false ∧ (m.shadowself = true ∨ m.shadowworldonly = true)))) ∨
    (classify g m f = .ok .sky ∧ Casts m ∧ f.noShadow = false ∧ m.switchable = false ∧ ¬ Special m f ∧ ¬ Hidden g f ∧ ¬ Passable g m f ∧ Sky g f) ∨
    (classify g m f = .ok .solid ∧ Casts m ∧ f.noShadow = false ∧ m.switchable = false ∧ ¬ Special m f ∧ ¬ Hidden g f ∧ ¬ Passable g m f ∧
      ¬ Sky g f ∧ (Liquid g f ∧ m.isWorld = false ∨ ¬ Liquid g f ∧ (m.isWorld = true ∨ m.shadow = true))) := by
  by_cases hC : Casts m
  swap
  · left
    refine ⟨?_, .inl hC⟩
    rw [casts_iff, Bool.not_eq_false] at hC
    unfold classify
    rw [if_pos hC]
  have hC' := (casts_iff m).mp hC
  by_cases hN : f.noShadow = true
  · left
    refine ⟨?_, .inr (.inl hN)⟩
    unfold classify
    rw [if_neg (by rw [hC']; decide), if_pos hN]
  have hN' : f.noShadow = false := by simpa using hN
  by_cases hW : m.switchable = true
  · right; left
    refine ⟨?_, hC, hN', .inl hW, .inl hW⟩
    unfold classify
    rw [if_neg (by rw [hC']; decide), if_neg hN, if_pos hW]
  have hW' : m.switchable = false := by simpa using hW
  by_cases hS : Special m f
  · right; left
    refine ⟨?_, hC, hN', .inr (.inl hS), .inr (.inl hS)⟩
    unfold classify
    rw [if_neg (by rw [hC']; decide), if_neg hN, if_neg hW, if_pos ((special_iff m f).mp hS)]
  have hS' := mt (special_iff m f).mpr hS
  by_cases hH : Hidden g f
  · left
    refine ⟨?_, .inr (.inr (.inl ⟨hW', hS, hH⟩))⟩
    unfold classify
    rw [if_neg (by rw [hC']; decide), if_neg hN, if_neg hW, if_neg hS', if_pos ((hidden_iff g f).mp hH)]
  have hH' := mt (hidden_iff g f).mpr hH
  by_cases hP : Passable g m f
  · right; left
    refine ⟨?_, hC, hN', .inr (.inr hH), .inr (.inr (.inl hP))⟩
    unfold classify
    rw [if_neg (by rw [hC']; decide), if_neg hN, if_neg hW, if_neg hS', if_neg hH']
    rcases (passable_iff g m f).mp hP with h | h
    · rw [if_pos h]
    · split_ifs <;> rfl
  have hP' := mt (passable_iff g m f).mpr hP
  push Not at hP'
  have base : classify g m f = (if g.q2 && f.sky && (!g.arghrad || (f.light && f.value != 0)) then .ok .sky
      else if !g.q2 && begins [115, 107, 121] f.name then .ok .sky
      else if liquid g f then .ok (if m.isWorld then .nowhere else .solid)
      else if m.isWorld || m.shadow then .ok .solid
      else if m.shadowself || m.shadowworldonly then .ok .filter
      else .error) := by
    conv_lhs => unfold classify
    rw [if_neg (by rw [hC']; decide), if_neg hN, if_neg hW, if_neg hS', if_neg hH', if_neg hP'.1, if_neg hP'.2]
  rw [base]
  by_cases hK : Sky g f
  · right; right; left
    refine ⟨?_, hC, hN', hW', hS, hH, hP, hK⟩
    rcases (sky_iff g f).mp hK with h | h
    · rw [if_pos h]
    · split_ifs <;> rfl
  have hK' := mt (sky_iff g f).mpr hK
  push Not at hK'
  rw [if_neg hK'.1, if_neg hK'.2]
  by_cases hL : Liquid g f
  · rw [if_pos ((liquid_iff g f).mp hL)]
    by_cases hw : m.isWorld = true
    · left
      rw [if_pos hw]
      exact ⟨rfl, .inr (.inr (.inr ⟨hW', hS, hH, hP, hK, hL, hw⟩))⟩
    · right; right; right
      rw [if_neg hw]
      exact ⟨rfl, hC, hN', hW', hS, hH, hP, hK, .inl ⟨hL, by simpa using hw⟩⟩
  rw [if_neg (mt (liquid_iff g f).mpr hL)]
  by_cases hw : (m.isWorld || m.shadow) = true
  · right; right; right
    rw [if_pos hw]
    exact ⟨rfl, hC, hN', hW', hS, hH, hP, hK, .inr ⟨hL, by simpa using hw⟩⟩
  · rw [if_neg hw]
    have hm : m.mask = 1 := by
      by_contra hm
      exact hS (.inl hm)
    have hws : m.isWorld = false ∧ m.shadow = false := by simpa using hw
    have hso : m.shadowself = true ∨ m.shadowworldonly = true := by
      rcases hC with h | h | h | h | h | h
      · rw [hws.1] at h; cases h
      · rw [hws.2] at h; cases h
      · exact .inl h
      · exact .inr h
      · rw [hW'] at h; cases h
      · exact absurd hm h
    rw [if_pos (by simpa using hso)]
    right; left
    exact ⟨rfl, hC, hN', .inr (.inr hH), .inr (.inr (.inr ⟨hK, hL, hws.1, hws.2, hso⟩))⟩

theorem reaches_iff (m : Mdl) (src : Option Mdl) : Reaches m src ↔
    (m.shadowworldonly && !(src.any (·.isWorld))) = false ∧ (m.shadowself && !(src.any (·.id == m.id))) = false := by
  unfold Reaches
  rcases src with _ | s
  · simp
  · cases m.shadowworldonly <;> cases m.shadowself <;> simp

/-- What a filter does, in the words of the specification. -/
theorem filter_cases (g : Game) (src : Option Mdl) (k : Mask) (m : Mdl) (f : Fc) (front : Bool) (t : Texel) (n : Notes) :
    ((¬ Shares (channels m f) k ∨ ¬ Reaches m src) ∧ filterHit src k (triinfo g m f) front t n = (n, false)) ∨
    (Shares (channels m f) k ∧ Reaches m src ∧
      ((m.switchable = true ∧ filterHit src k (triinfo g m f) front t n = ({ n with style := m.style }, false)) ∨
       (m.switchable = false ∧ Glass g m f ∧ front = true ∧ filterHit src k (triinfo g m f) front t n =
         ({ n with glass := some (t.col, max 0 (min (if t.a < 255 then (t.a.toNat : ℚ) / 255 else faceAlpha g m f) 1)) }, false)) ∨
       (m.switchable = false ∧ Glass g m f ∧ front = false ∧ filterHit src k (triinfo g m f) front t n = (n, false)) ∨
       (m.switchable = false ∧ ¬ Glass g m f ∧ (Fence g f ∧ t.a ≠ 255) ∧ filterHit src k (triinfo g m f) front t n = (n, false)) ∨
       (m.switchable = false ∧ ¬ Glass g m f ∧ (Fence g f → t.a = 255) ∧ filterHit src k (triinfo g m f) front t n = (n, true)))) := by
  have ha : t.a < 255 ↔ t.a ≠ 255 := by
    rw [UInt8.lt_iff_toNat_lt, Ne, ← UInt8.toNat_inj]
    have := t.a.toNat_lt
    have e : (255 : UInt8).toNat = 255 := rfl
    omega
  have hch : (triinfo g m f).channel = channels m f := rfl
  have hmd : (triinfo g m f).mdl = m := rfl
  by_cases hs : Shares (channels m f) k
  swap
  · left
    refine ⟨.inl hs, ?_⟩
    unfold filterHit
    rw [hch, if_pos (by rw [shares_iff] at hs; simpa using hs)]
  have hs' : ¬ ((channels m f &&& k == 0) = true) := by
    rw [shares_iff] at hs; simpa using hs
  by_cases hr : Reaches m src
  swap
  · left
    refine ⟨.inr hr, ?_⟩
    rw [reaches_iff] at hr
    unfold filterHit
    rw [hch, hmd, if_neg hs']
    split_ifs with h1 h2
    · rfl
    · rfl
    all_goals exact absurd ⟨by simpa using h1, by simpa using h2⟩ hr
  right
  refine ⟨hs, hr, ?_⟩
  have hr' := (reaches_iff m src).mp hr
  have base : filterHit src k (triinfo g m f) front t n =
      if m.switchable then ({ n with style := m.style }, false)
      else if (triinfo g m f).glass then
        (if front then addGlass n (if t.a < 255 then (t.a.toNat : ℚ) / 255 else (triinfo g m f).alpha) t.col else n, false)
      else if (triinfo g m f).fence && decide (t.a < 255) then (n, false)
      else (n, true) := by
    conv_lhs => unfold filterHit
    rw [hch, hmd, if_neg hs', if_neg (by rw [hr'.1]; decide), if_neg (by rw [hr'.2]; decide)]
  rw [base]
  by_cases hw : m.switchable = true
  · left
    rw [if_pos hw]
    exact ⟨hw, rfl⟩
  · right
    rw [if_neg hw]
    have hw' : m.switchable = false := by simpa using hw
    by_cases hg : Glass g m f
    · rw [if_pos ((glass_iff g m f).mp hg)]
      cases front with
      | true => exact .inl ⟨hw', hg, rfl, rfl⟩
      | false => exact .inr (.inl ⟨hw', hg, rfl, rfl⟩)
    · rw [if_neg (mt (glass_iff g m f).mpr hg)]
      by_cases hf : Fence g f ∧ t.a ≠ 255
      · rw [if_pos (by rw [Bool.and_eq_true, decide_eq_true_eq, ha]; exact ⟨(fence_iff g m f).mp hf.1, hf.2⟩)]
        exact .inr (.inr (.inl ⟨hw', hg, hf, rfl⟩))
      · rw [if_neg (by rw [Bool.and_eq_true, decide_eq_true_eq, ha]; exact fun hc => hf ⟨(fence_iff g m f).mpr hc.1, hc.2⟩)]
        refine .inr (.inr (.inr ⟨hw', hg, ?_, rfl⟩))
        intro h1
        by_contra h2
        exact hf ⟨h1, h2⟩

theorem channels_plain {m : Mdl} {f : Fc} (h : ¬ Special m f) : channels m f = 1 := by
  unfold Special at h
  unfold channels
  push Not at h
  rcases hf : f.mask with _ | k
  · exact h.1
  · exact h.2 k hf

theorem mask_flag (a k : Mask) (h : k = 1 → a = 1) : (decide (k = 1) || a &&& k != 0) = true ↔ Shares a k := by
  rw [shares_iff]
  by_cases hk : k = 1
  · subst hk
    rw [h rfl]
    decide
  · rw [decide_eq_false hk, Bool.false_or]
    simp

/-- What the filters do for a triangle, in the words of the specification. -/
theorem call_spec (g : Game) (src : Option Mdl) (k : Mask) (h : Hit) (n : Notes) (hl : k = 1 ∨ h.part ≠ .leaf) :
    ∃ r, callHit g src k h n = .ok r ∧ (r.2 = true ↔ Blocks g src k h) ∧
      ((∃ c o, Tints g src k h c o ∧ r.1 = { n with glass := some (c, o) }) ∨
       (∃ s, Switches g src k h s ∧ r.1 = { n with style := s }) ∨
       ((∀ c o, ¬ Tints g src k h c o) ∧ (∀ s, ¬ Switches g src k h s) ∧ r.1 = n)) := by
  rcases hp : h.part with ⟨m, f⟩ | _
  swap
  · have hk : k = 1 := by
      rcases hl with hl | hl
      · exact hl
      · exact absurd hp hl
    refine ⟨(n, true), ?_, ?_, .inr (.inr ⟨?_, ?_, rfl⟩)⟩
    · unfold callHit
      rw [hp]
      dsimp only
      rw [if_pos hk]
    · unfold Blocks
      rw [hp]
      simp
    · rintro c o ⟨m, f, h1, _⟩
      rw [hp] at h1
      cases h1
    · rintro s ⟨m, f, h1, _⟩
      rw [hp] at h1
      cases h1
  have hB : Blocks g src k h ↔ There g k m f ∧ m.switchable = false ∧
      ((Special m f ∨ Passable g m f) ∧ Reaches m src ∧ Stops g m f h.texel ∨
       (¬ Special m f ∧ ¬ Passable g m f) ∧
        (Sky g f ∨ ¬ Sky g f ∧ Liquid g f ∧ m.isWorld = false ∨
          ¬ Sky g f ∧ ¬ Liquid g f ∧ (m.isWorld = true ∨ m.shadow = true ∨ Reaches m src))) := by
    unfold Blocks
    rw [hp]
  have hT : ∀ c o, Tints g src k h c o ↔ There g k m f ∧ m.switchable = false ∧ Reaches m src ∧ Glass g m f ∧ h.front = true ∧
    c = h.texel.col ∧ o = max 0 (min (if h.texel.a < 255 then (h.texel.a.toNat : ℚ) / 255 else faceAlpha g m f) 1) := by
    intro c o
    unfold Tints
    constructor
    · rintro ⟨m', f', e, h1⟩
      rw [hp] at e
      cases e
      exact h1
    · intro h1
      exact ⟨m, f, hp, h1⟩
  have hS : ∀ s, Switches g src k h s ↔ There g k m f ∧ m.switchable = true ∧ Reaches m src ∧ s = m.style := by
    intro s
    unfold Switches
    constructor
    · rintro ⟨m', f', e, h1⟩
      rw [hp] at e
      cases e
      exact h1
    · intro h1
      exact ⟨m, f, hp, h1⟩
  -- glass is passable
  have hGP : Glass g m f → Passable g m f := by
    unfold Glass Passable
    split_ifs with hq
    · rintro ⟨_, h2⟩
      exact .inr (.inl ⟨hq, .inr h2⟩)
    · exact fun h => .inl h
  have hFP : Fence g f → Passable g m f := by
    unfold Fence Passable
    split_ifs with hq
    · intro h2
      exact .inr (.inl ⟨hq, .inl h2⟩)
    · exact fun h => .inr (.inr h)
  rcases classify_cases g m f with ⟨hc, hw⟩ | ⟨hc, hC, hN, hV, hw⟩ | ⟨hc, hC, hN, hW, hSp, hH, hP, hw⟩ | ⟨hc, hC, hN, hW, hSp, hH, hP, hK, hw⟩
  · -- nowhere
    refine ⟨(n, false), by unfold callHit; rw [hp]; dsimp only; rw [hc], ?_, .inr (.inr ⟨?_, ?_, rfl⟩)⟩
    · rw [hB]
      simp only [Bool.false_eq_true, false_iff]
      rintro ⟨⟨h1, h2, h3, h4⟩, h5, h6⟩
      rcases hw with hw | hw | ⟨_, hw1, hw2⟩ | ⟨_, hw1, _, hw2, hw3, hw4, hw5⟩
      · exact hw h1
      · rw [hw] at h2; cases h2
      · rcases h4 with h4 | h4 | h4
        · rw [h4] at h5; cases h5
        · exact hw1 h4
        · exact h4 hw2
      · rcases h6 with ⟨h6 | h6, _⟩ | ⟨_, h6 | ⟨_, _, h6⟩ | ⟨_, h6, _⟩⟩
        · exact hw1 h6
        · exact hw2 h6
        · exact hw3 h6
        · rw [hw5] at h6; cases h6
        · exact h6 hw4
    · intro c o
      rw [hT]
      rintro ⟨⟨h1, h2, h3, h4⟩, h5, h6, h7, _⟩
      rcases hw with hw | hw | ⟨_, hw1, hw2⟩ | ⟨_, hw1, _, hw2, hw3, hw4, hw5⟩
      · exact hw h1
      · rw [hw] at h2; cases h2
      · rcases h4 with h4 | h4 | h4
        · rw [h4] at h5; cases h5
        · exact hw1 h4
        · exact h4 hw2
      · exact hw2 (hGP h7)
    · intro s
      rw [hS]
      rintro ⟨⟨h1, h2, h3, h4⟩, h5, _⟩
      rcases hw with hw | hw | ⟨hw1, _⟩ | ⟨hw1, _⟩
      · exact hw h1
      · rw [hw] at h2; cases h2
      · rw [h5] at hw1; cases hw1
      · rw [h5] at hw1; cases hw1
  · -- filter
    have hcall : ∀ r, filterHit src k (triinfo g m f) h.front h.texel n = r → callHit g src k h n =
        .ok (r.1, r.2 && (k = 1 || (triinfo g m f).channel &&& k != 0)) := by
      rintro r rfl
      unfold callHit
      rw [hp]
      dsimp only
      rw [hc]
    have hflag : Shares (channels m f) k → (decide (k = 1) || (triinfo g m f).channel &&& k != 0) = true := by
      intro hs
      rw [shares_iff] at hs
      have : (triinfo g m f).channel = channels m f := rfl
      rw [this, Bool.or_eq_true]
      exact .inr (by simpa using hs)
    rcases filter_cases g src k m f h.front h.texel n with ⟨hn, he⟩ | ⟨hs, hr, ⟨h1, he⟩ | ⟨h1, h2, h3, he⟩ | ⟨h1, h2, h3, he⟩ | ⟨h1, h2, h3, he⟩ | ⟨h1, h2, h3, he⟩⟩
    · refine ⟨_, hcall _ he, ?_, .inr (.inr ⟨?_, ?_, rfl⟩)⟩
      · rw [hB]
        simp only [Bool.false_and, Bool.false_eq_true, false_iff]
        rintro ⟨⟨q1, q2, q3, q4⟩, q5, q6⟩
        rcases hn with hn | hn
        · exact hn q3
        · rcases q6 with ⟨_, q6, _⟩ | ⟨q6, q7⟩
          · exact hn q6
          · rcases hw with hw | hw | hw | ⟨w1, w2, w3, w4, _⟩
            · rw [hw] at q5; cases q5
            · exact q6.1 hw
            · exact q6.2 hw
            · rcases q7 with q7 | ⟨_, q7, _⟩ | ⟨_, _, q7 | q7 | q7⟩
              · exact w1 q7
              · exact w2 q7
              · rw [w3] at q7; cases q7
              · rw [w4] at q7; cases q7
              · exact hn q7
      · intro c o
        rw [hT]
        rintro ⟨⟨q1, q2, q3, q4⟩, q5, q6, _⟩
        exact hn.elim (· q3) (· q6)
      · intro s
        rw [hS]
        rintro ⟨⟨q1, q2, q3, q4⟩, q5, q6, _⟩
        exact hn.elim (· q3) (· q6)
    · refine ⟨_, hcall _ he, ?_, .inr (.inl ⟨m.style, ?_, rfl⟩)⟩
      · rw [hB]
        simp only [Bool.false_and, Bool.false_eq_true, false_iff]
        rintro ⟨_, q5, _⟩
        rw [h1] at q5; cases q5
      · rw [hS]
        exact ⟨⟨hC, hN, hs, .inl h1⟩, h1, hr, rfl⟩
    · refine ⟨_, hcall _ he, ?_, .inl ⟨_, _, (hT _ _).mpr ⟨⟨hC, hN, hs, hV⟩, h1, hr, h2, h3, rfl, rfl⟩, rfl⟩⟩
      rw [hB]
      simp only [Bool.false_and, Bool.false_eq_true, false_iff]
      rintro ⟨_, _, ⟨_, _, q, _⟩ | ⟨⟨_, q⟩, _⟩⟩
      · exact q h2
      · exact q (hGP h2)
    · refine ⟨_, hcall _ he, ?_, .inr (.inr ⟨?_, ?_, rfl⟩)⟩
      · rw [hB]
        simp only [Bool.false_and, Bool.false_eq_true, false_iff]
        rintro ⟨_, _, ⟨_, _, q, _⟩ | ⟨⟨_, q⟩, _⟩⟩
        · exact q h2
        · exact q (hGP h2)
      · intro c o
        rw [hT]
        rintro ⟨_, _, _, _, q, _⟩
        rw [h3] at q; cases q
      · intro s
        rw [hS]
        rintro ⟨_, q, _⟩
        rw [h1] at q; cases q
    · refine ⟨_, hcall _ he, ?_, .inr (.inr ⟨?_, ?_, rfl⟩)⟩
      · rw [hB]
        simp only [Bool.false_and, Bool.false_eq_true, false_iff]
        rintro ⟨_, _, ⟨_, _, _, q⟩ | ⟨⟨_, q⟩, _⟩⟩
        · exact h3.2 (q h3.1)
        · exact q (hFP h3.1)
      · intro c o
        rw [hT]
        rintro ⟨_, _, _, q, _⟩
        exact h2 q
      · intro s
        rw [hS]
        rintro ⟨_, q, _⟩
        rw [h1] at q; cases q
    · refine ⟨_, hcall _ he, ?_, .inr (.inr ⟨?_, ?_, rfl⟩)⟩
      · rw [hB]
        simp only [Bool.true_and]
        rw [show (decide (k = 1) || (triinfo g m f).channel &&& k != 0) = true from hflag hs]
        simp only [true_iff]
        refine ⟨⟨hC, hN, hs, hV⟩, h1, ?_⟩
        by_cases hx : Special m f ∨ Passable g m f
        · exact .inl ⟨hx, hr, h2, h3⟩
        · push Not at hx
          rcases hw with hw | hw | hw | ⟨w1, w2, w3, w4, _⟩
          · rw [h1] at hw; cases hw
          · exact absurd hw hx.1
          · exact absurd hw hx.2
          · exact .inr ⟨hx, .inr (.inr ⟨w1, w2, .inr (.inr hr)⟩)⟩
      · intro c o
        rw [hT]
        rintro ⟨_, _, _, q, _⟩
        exact h2 q
      · intro s
        rw [hS]
        rintro ⟨_, q, _⟩
        rw [h1] at q; cases q
  · -- sky
    refine ⟨(n, decide (k = 1) || (triinfo g m f).channel &&& k != 0), by unfold callHit; rw [hp]; dsimp only; rw [hc], ?_, .inr (.inr ⟨?_, ?_, rfl⟩)⟩
    · dsimp only
      rw [hB, show (triinfo g m f).channel = channels m f from rfl, mask_flag _ _ (fun _ => channels_plain hSp)]
      exact ⟨fun hs => ⟨⟨hC, hN, hs, .inr (.inr hH)⟩, hW, .inr ⟨⟨hSp, hP⟩, .inl hw⟩⟩, fun q => q.1.2.2.1⟩
    · intro c o
      rw [hT]
      rintro ⟨_, _, _, q, _⟩
      exact hP (hGP q)
    · intro s
      rw [hS]
      rintro ⟨_, q, _⟩
      rw [hW] at q; cases q
  · -- solid
    refine ⟨(n, decide (k = 1) || (triinfo g m f).channel &&& k != 0), by unfold callHit; rw [hp]; dsimp only; rw [hc], ?_, .inr (.inr ⟨?_, ?_, rfl⟩)⟩
    · dsimp only
      rw [hB, show (triinfo g m f).channel = channels m f from rfl, mask_flag _ _ (fun _ => channels_plain hSp)]
      refine ⟨fun hs => ⟨⟨hC, hN, hs, .inr (.inr hH)⟩, hW, .inr ⟨⟨hSp, hP⟩, ?_⟩⟩, fun q => q.1.2.2.1⟩
      rcases hw with ⟨w1, w2⟩ | ⟨w1, w2 | w2⟩
      · exact .inr (.inl ⟨hK, w1, w2⟩)
      · exact .inr (.inr ⟨hK, w1, .inl w2⟩)
      · exact .inr (.inr ⟨hK, w1, .inr (.inl w2)⟩)
    · intro c o
      rw [hT]
      rintro ⟨_, _, _, q, _⟩
      exact hP (hGP q)
    · intro s
      rw [hS]
      rintro ⟨_, q, _⟩
      rw [hW] at q; cases q

end Verif.Shadow
