import Verif.Shadow.Lemmas

/-!
C212: what stops a ray of light. C213: what tints a ray of light, or makes it switchable.
-/

namespace Verif.Shadow

open Spec

/-- A run that was not stopped has seen every triangle, and none of them blocks; one that was stopped has seen one that does. -/
theorem occluded_run (g : Game) (src : Option Mdl) (k : Mask) : ∀ (l : List Hit) (n : Notes), Known k l →
    ∃ n' b, occluded g src k l n = .ok (n', b) ∧ (b = true ↔ ∃ h ∈ l, Blocks g src k h) ∧
      (b = false →
        (((∀ h ∈ l, ∀ c o, ¬ Tints g src k h c o) ∧ n'.glass = n.glass) ∨ ∃ h ∈ l, ∃ c o, Tints g src k h c o ∧ n'.glass = some (c, o)) ∧
        (((∀ h ∈ l, ∀ s, ¬ Switches g src k h s) ∧ n'.style = n.style) ∨ ∃ h ∈ l, Switches g src k h n'.style)) := by
  intro l
  induction l with
  | nil =>
    intro n _
    exact ⟨n, false, rfl, by simp, fun _ => ⟨.inl ⟨by simp, rfl⟩, .inl ⟨by simp, rfl⟩⟩⟩
  | cons h l ih =>
    intro n hk
    have hk1 : k = 1 ∨ h.part ≠ .leaf := hk.elim .inl fun hk => .inr (hk h (by simp))
    have hk2 : Known k l := hk.elim .inl fun hk => .inr fun x hx => hk x (by simp [hx])
    obtain ⟨r, hr, hb, hn⟩ := call_spec g src k h n hk1
    by_cases hr2 : r.2 = true
    · refine ⟨r.1, true, ?_, by simp only [true_iff]; exact ⟨h, by simp, hb.mp hr2⟩, by intro hc; cases hc⟩
      unfold occluded
      rw [hr, Outcome.ok_bind, if_pos hr2]
    · obtain ⟨n', b, h1, h2, h3⟩ := ih r.1 hk2
      refine ⟨n', b, ?_, ?_, ?_⟩
      · unfold occluded
        rw [hr, Outcome.ok_bind, if_neg hr2, h1]
      · rw [h2]
        constructor
        · rintro ⟨x, hx, hx'⟩
          exact ⟨x, by simp [hx], hx'⟩
        · rintro ⟨x, hx, hx'⟩
          rcases List.mem_cons.mp hx with rfl | hx
          · exact absurd (hb.mpr hx') hr2
          · exact ⟨x, hx, hx'⟩
      · intro hbf
        obtain ⟨hg, hs⟩ := h3 hbf
        constructor
        · rcases hg with ⟨hg1, hg2⟩ | ⟨x, hx, hg⟩
          · rcases hn with ⟨c, o, ht, e⟩ | ⟨s, ht, e⟩ | ⟨ht, _, e⟩
            · exact .inr ⟨h, by simp, c, o, ht, by rw [hg2, e]⟩
            · left
              refine ⟨?_, by rw [hg2, e]⟩
              intro x hx
              rcases List.mem_cons.mp hx with rfl | hx
              · intro c o ht'
                obtain ⟨m, f, q1, q2, q3, _⟩ := ht
                obtain ⟨m', f', w1, w2, w3, _⟩ := ht'
                rw [q1] at w1
                cases w1
                rw [q3] at w3
                cases w3
              · exact hg1 x hx
            · left
              refine ⟨?_, by rw [hg2, e]⟩
              intro x hx
              rcases List.mem_cons.mp hx with rfl | hx
              · exact ht
              · exact hg1 x hx
          · exact .inr ⟨x, by simp [hx], hg⟩
        · rcases hs with ⟨hs1, hs2⟩ | ⟨x, hx, hs⟩
          · rcases hn with ⟨c, o, ht, e⟩ | ⟨s, ht, e⟩ | ⟨_, ht, e⟩
            · left
              refine ⟨?_, by rw [hs2, e]⟩
              intro x hx
              rcases List.mem_cons.mp hx with rfl | hx
              · intro s ht'
                obtain ⟨m, f, q1, q2, q3, _⟩ := ht
                obtain ⟨m', f', w1, w2, w3, _⟩ := ht'
                rw [q1] at w1
                cases w1
                rw [q3] at w3
                cases w3
              · exact hs1 x hx
            · right
              refine ⟨h, by simp, ?_⟩
              rw [hs2, e]
              exact ht
            · left
              refine ⟨?_, by rw [hs2, e]⟩
              intro x hx
              rcases List.mem_cons.mp hx with rfl | hx
              · exact ht
              · exact hs1 x hx
          · exact .inr ⟨x, by simp [hx], hs⟩

theorem known_order {k : Mask} {hits order : List Hit} (ho : Order hits order) (hk : Known k hits) : Known k order :=
  hk.elim .inl fun h => .inr fun x hx => h x ((ho x).mp hx)

/-- **C212**: whatever the order in which the ray tracer meets the triangles on a ray, and however often, the ray is occluded
exactly if one of them blocks light to this surface. -/
theorem occluded_iff (g : Game) (src : Option Mdl) (k : Mask) (hits order : List Hit) (ho : Order hits order) (hk : Known k hits) :
    ∃ n b, occluded g src k order fresh = .ok (n, b) ∧ (b = true ↔ ∃ h ∈ hits, Blocks g src k h) := by
  obtain ⟨n, b, h1, h2, _⟩ := occluded_run g src k order fresh (known_order ho hk)
  refine ⟨n, b, h1, h2.trans ?_⟩
  exact ⟨fun ⟨h, hm, hb⟩ => ⟨h, (ho h).mp hm, hb⟩, fun ⟨h, hm, hb⟩ => ⟨h, (ho h).mpr hm, hb⟩⟩

theorem lit_iff (g : Game) (src : Option Mdl) (k : Mask) (hits : List Hit) (hk : Known k hits) :
    Lit g src k hits ↔ ∀ h ∈ hits, ¬ Blocks g src k h := by
  constructor
  · intro hl h hm hb
    obtain ⟨n, hn⟩ := hl hits (fun _ => Iff.rfl)
    obtain ⟨n', b, h1, h2⟩ := occluded_iff g src k hits hits (fun _ => Iff.rfl) hk
    rw [h1] at hn
    cases hn
    exact absurd (h2.mpr ⟨h, hm, hb⟩) (by decide)
  · intro hl order ho
    obtain ⟨n', b, h1, h2⟩ := occluded_iff g src k hits order ho hk
    cases b with
    | false => exact ⟨n', h1⟩
    | true =>
      obtain ⟨h, hm, hb⟩ := h2.mp rfl
      exact absurd hb (hl h hm)

theorem dark_iff (g : Game) (src : Option Mdl) (k : Mask) (hits : List Hit) (hk : Known k hits) :
    Dark g src k hits ↔ ∃ h ∈ hits, Blocks g src k h := by
  constructor
  · intro hl
    obtain ⟨n, hn⟩ := hl hits (fun _ => Iff.rfl)
    obtain ⟨n', b, h1, h2⟩ := occluded_iff g src k hits hits (fun _ => Iff.rfl) hk
    rw [h1] at hn
    cases hn
    exact h2.mp rfl
  · intro hl order ho
    obtain ⟨n', b, h1, h2⟩ := occluded_iff g src k hits order ho hk
    rw [← h2] at hl
    subst hl
    exact ⟨n', h1⟩

/-- **C212**: a face is never in the way of light if its model casts no shadow, if the face was exempted, if the light and the
face have no channel in common, if its model's shadow is switchable, if it is glass, or if it is a liquid of the world with the
default channels. -/
theorem passes (g : Game) (src : Option Mdl) (k : Mask) (hits : List Hit) (h : ∀ h ∈ hits, ∃ m f, h.part = .face m f ∧
    (¬ Casts m ∨ f.noShadow = true ∨ ¬ Shares (channels m f) k ∨ m.switchable = true ∨ Glass g m f ∨
      (m.isWorld = true ∧ ¬ Special m f ∧ Liquid g f ∧ ¬ Sky g f ∧ ¬ Passable g m f))) : Lit g src k hits := by
  rw [lit_iff g src k hits (.inr fun x hx e => by obtain ⟨m, f, q, _⟩ := h x hx; rw [q] at e; cases e)]
  intro x hx hb
  obtain ⟨m, f, q, hc⟩ := h x hx
  unfold Blocks at hb
  rw [q] at hb
  obtain ⟨⟨h1, h2, h3, h4⟩, h5, h6⟩ := hb
  rcases hc with hc | hc | hc | hc | hc | ⟨c1, c2, c3, c4, c5⟩
  · exact hc h1
  · rw [hc] at h2; cases h2
  · exact hc h3
  · rw [hc] at h5; cases h5
  · rcases h6 with ⟨_, _, h6, _⟩ | ⟨⟨_, h6⟩, _⟩
    · exact h6 hc
    · apply h6
      revert hc
      unfold Glass Passable
      split_ifs with hq
      · rintro ⟨_, h2⟩
        exact .inr (.inl ⟨hq, .inr h2⟩)
      · exact fun h => .inl h
  · rcases h6 with ⟨h6 | h6, _⟩ | ⟨_, h6 | ⟨_, _, h6⟩ | ⟨_, h6, _⟩⟩
    · exact c2 h6
    · exact c5 h6
    · exact c4 h6
    · rw [c1] at h6; cases h6
    · exact h6 c3

/-- **C212**: an ordinary face of the world or of a model with `_shadow` stops all light of its channels: one that is not exempted,
not invisible, not a liquid, and not made passable by its alpha, its flags or its name. -/
theorem solid_blocks (g : Game) (src : Option Mdl) (k : Mask) (hits : List Hit) (hk : Known k hits) (h : Hit) (hm : h ∈ hits)
    (m : Mdl) (f : Fc) (hp : h.part = .face m f) (hs : m.isWorld = true ∨ m.shadow = true) (hw : m.switchable = false) (hn : f.noShadow = false)
    (hsp : ¬ Special m f) (hh : ¬ Hidden g f) (hpa : ¬ Passable g m f) (hl : ¬ Liquid g f) (hc : Shares 1 k) : Dark g src k hits := by
  rw [dark_iff g src k hits hk]
  refine ⟨h, hm, ?_⟩
  unfold Blocks
  rw [hp]
  refine ⟨⟨hs.elim .inl (fun h => .inr (.inl h)), hn, by rw [channels_plain hsp]; exact hc, .inr (.inr hh)⟩, hw, .inr ⟨⟨hsp, hpa⟩, ?_⟩⟩
  by_cases hk : Sky g f
  · exact .inl hk
  · exact .inr (.inr ⟨hk, hl, hs.elim .inl (fun h => .inr (.inl h))⟩)

/-- **C212**: a fence of the world stops light where its texel is opaque, and nowhere else. -/
theorem fence_blocks (g : Game) (src : Option Mdl) (k : Mask) (h : Hit) (m : Mdl) (f : Fc) (hp : h.part = .face m f)
    (hi : m.isWorld = true) (h1 : m.shadowself = false) (h2 : m.shadowworldonly = false) (hw : m.switchable = false) (hn : f.noShadow = false)
    (hh : ¬ Hidden g f) (hf : Fence g f) (hg : ¬ Glass g m f) (hc : Shares (channels m f) k) :
    (h.texel.a = 255 → Dark g src k [h]) ∧ (h.texel.a ≠ 255 → Lit g src k [h]) := by
  have hkn : Known k [h] := .inr (by simp [hp])
  have hP : Passable g m f := by
    revert hf
    unfold Fence Passable
    split_ifs with hq
    · intro h2
      exact .inr (.inl ⟨hq, .inl h2⟩)
    · exact fun h => .inr (.inr h)
  constructor
  · intro ha
    rw [dark_iff g src k _ hkn]
    refine ⟨h, by simp, ?_⟩
    unfold Blocks
    rw [hp]
    exact ⟨⟨.inl hi, hn, hc, .inr (.inr hh)⟩, hw, .inl ⟨.inr hP, ⟨by rw [h2]; simp, by rw [h1]; simp⟩, hg, fun _ => ha⟩⟩
  · intro ha
    rw [lit_iff g src k _ hkn]
    intro x hx hb
    rw [List.mem_singleton] at hx
    subst hx
    unfold Blocks at hb
    rw [hp] at hb
    obtain ⟨_, _, ⟨_, _, _, q⟩ | ⟨⟨_, q⟩, _⟩⟩ := hb
    · exact ha (q hf)
    · exact q hP

/-- **C212**: the faces of a model with `_shadowself` (and not `_shadow`) stop light to surfaces of this model only, those of a model
with `_shadowworldonly` light to the world only; except for its liquids and sky faces. -/
theorem limited_shadow_partial (g : Game) (src : Option Mdl) (k : Mask) (hits : List Hit) (hh : ∀ h ∈ hits, ∃ m f, h.part = .face m f ∧
      m.isWorld = false ∧ m.shadow = false ∧
      (m.shadowself = true ∧ (∀ s, src = some s → s.id ≠ m.id) ∨ m.shadowworldonly = true ∧ (∀ s, src = some s → s.isWorld = false)) ∧
      (Special m f ∨ Passable g m f ∨ (¬ Liquid g f ∧ ¬ Sky g f))) : Lit g src k hits := by
  rw [lit_iff g src k hits (.inr fun x hx e => by obtain ⟨m, f, q, _⟩ := hh x hx; rw [q] at e; cases e)]
  intro x hx hb
  obtain ⟨m, f, q, h1, h2, h3, h4⟩ := hh x hx
  have hnr : ¬ Reaches m src := by
    rintro ⟨r1, r2⟩
    rcases h3 with ⟨a, b⟩ | ⟨a, b⟩
    · obtain ⟨s, e, e'⟩ := r2 a
      exact b s e e'
    · obtain ⟨s, e, e'⟩ := r1 a
      rw [b s e] at e'; cases e'
  unfold Blocks at hb
  rw [q] at hb
  obtain ⟨_, _, ⟨_, q1, _⟩ | ⟨⟨q1, q2⟩, q3⟩⟩ := hb
  · exact hnr q1
  · rcases h4 with h4 | h4 | ⟨h4, h5⟩
    · exact q1 h4
    · exact q2 h4
    · rcases q3 with q3 | ⟨_, q3, _⟩ | ⟨_, _, q3 | q3 | q3⟩
      · exact h5 q3
      · exact h4 q3
      · rw [h1] at q3; cases q3
      · rw [h2] at q3; cases q3
      · exact hnr q3

/-- Whether the nearest triangle that stops a ray is sky: an ordinary face with the sky texture, of a model that casts shadows, with
the default channels. -/
theorem isSky_iff (g : Game) (h : Hit) : isSky g h = true ↔ ∃ m f, h.part = .face m f ∧ Casts m ∧ f.noShadow = false ∧
    m.switchable = false ∧ ¬ Special m f ∧ ¬ Hidden g f ∧ ¬ Passable g m f ∧ Sky g f := by
  unfold isSky
  rcases hp : h.part with ⟨m, f⟩ | _
  · dsimp only
    have key : ∀ m' f', Part.face m f = Part.face m' f' ↔ m' = m ∧ f' = f := by
      intro m' f'
      constructor
      · intro e; cases e; exact ⟨rfl, rfl⟩
      · rintro ⟨rfl, rfl⟩; rfl
    rcases classify_cases g m f with ⟨hc, hw⟩ | ⟨hc, hC, hN, hV, hw⟩ | ⟨hc, hC, hN, hW, hSp, hH, hP, hw⟩ | ⟨hc, hC, hN, hW, hSp, hH, hP, hK, hw⟩
    · rw [hc]
      simp only [Bool.false_eq_true, false_iff]
      rintro ⟨m', f', e, h1, h2, h3, h4, h5, h6, h7⟩
      obtain ⟨rfl, rfl⟩ := (key m' f').mp e
      rcases hw with hw | hw | ⟨_, _, hw⟩ | ⟨_, _, _, _, hw, _⟩
      · exact hw h1
      · rw [hw] at h2; cases h2
      · exact h5 hw
      · exact hw h7
    · rw [hc]
      simp only [Bool.false_eq_true, false_iff]
      rintro ⟨m', f', e, h1, h2, h3, h4, h5, h6, h7⟩
      obtain ⟨rfl, rfl⟩ := (key m' f').mp e
      rcases hw with hw | hw | hw | ⟨hw, _⟩
      · rw [hw] at h3; cases h3
      · exact h4 hw
      · exact h6 hw
      · exact hw h7
    · rw [hc]
      simp only [true_iff]
      exact ⟨m, f, rfl, hC, hN, hW, hSp, hH, hP, hw⟩
    · rw [hc]
      simp only [Bool.false_eq_true, false_iff]
      rintro ⟨m', f', e, h1, h2, h3, h4, h5, h6, h7⟩
      obtain ⟨rfl, rfl⟩ := (key m' f').mp e
      exact hK h7
  · simp

/-- **C212**: whatever the order in which the ray tracer meets the triangles, a ray that asks for the nearest one is told a nearest
one of those that block light to this surface, and none only if there is none. -/
theorem intersect_nearest (g : Game) (src : Option Mdl) (k : Mask) (hits order : List Hit) (ho : Order hits order) (hk : Known k hits) :
    ∃ n r, intersect g src k order fresh none = .ok (n, r) ∧ (r = none ↔ ∀ h ∈ hits, ¬ Blocks g src k h) ∧
      ∀ b, r = some b → b ∈ hits ∧ Blocks g src k b ∧ ∀ h ∈ hits, Blocks g src k h → b.dist ≤ h.dist := by
  have main : ∀ (l : List Hit) (n : Notes) (best : Option Hit), Known k l → ∃ n' r, intersect g src k l n best = .ok (n', r) ∧
      (r = none ↔ best = none ∧ ∀ h ∈ l, ¬ Blocks g src k h) ∧
      (∀ b, r = some b → (best = some b ∨ (b ∈ l ∧ Blocks g src k b)) ∧ (∀ c, best = some c → b.dist ≤ c.dist) ∧
        ∀ h ∈ l, Blocks g src k h → b.dist ≤ h.dist) := by
    intro l
    induction l with
    | nil =>
      intro n best _
      exact ⟨n, best, rfl, by simp, fun b e => ⟨.inl e, fun c hc => by rw [e] at hc; cases hc; exact le_refl _, by simp⟩⟩
    | cons h l ih =>
      intro n best hk
      have hk1 : k = 1 ∨ h.part ≠ .leaf := hk.elim .inl fun hk => .inr (hk h (by simp))
      have hk2 : Known k l := hk.elim .inl fun hk => .inr fun x hx => hk x (by simp [hx])
      by_cases hb : best.any (fun b => decide (b.dist < h.dist)) = true
      · obtain ⟨n', r, h1, h2, h3⟩ := ih n best hk2
        obtain ⟨b0, hb0, hlt⟩ : ∃ b0, best = some b0 ∧ b0.dist < h.dist := by
          rcases best with _ | b0
          · simp at hb
          · exact ⟨b0, rfl, by simpa using hb⟩
        refine ⟨n', r, ?_, ?_, ?_⟩
        · unfold intersect
          rw [if_pos hb, h1]
        · rw [h2, hb0]
          simp
        · intro b e
          obtain ⟨q1, q2, q3⟩ := h3 b e
          refine ⟨q1.imp_right fun q => ⟨by simp [q.1], q.2⟩, q2, ?_⟩
          intro x hx hx'
          rcases List.mem_cons.mp hx with rfl | hx
          · exact le_trans (q2 b0 hb0) hlt.le
          · exact q3 x hx hx'
      · obtain ⟨r0, hr, hb1, _⟩ := call_spec g src k h n hk1
        obtain ⟨n', r, h1, h2, h3⟩ := ih r0.1 (if r0.2 then some h else best) hk2
        refine ⟨n', r, ?_, ?_, ?_⟩
        · unfold intersect
          rw [if_neg hb, hr, Outcome.ok_bind, h1]
        · rw [h2]
          by_cases hr2 : r0.2 = true
          · rw [if_pos hr2]
            have := hb1.mp hr2
            constructor
            · rintro ⟨e, _⟩; cases e
            · rintro ⟨_, e⟩; exact absurd this (e h (by simp))
          · rw [if_neg hr2]
            have := mt hb1.mpr hr2
            simp only [List.mem_cons, forall_eq_or_imp]
            tauto
        · intro b e
          obtain ⟨q1, q2, q3⟩ := h3 b e
          by_cases hr2 : r0.2 = true
          · rw [if_pos hr2] at q1 q2
            have hbl := hb1.mp hr2
            have hle : b.dist ≤ h.dist := q2 h rfl
            refine ⟨?_, ?_, ?_⟩
            · rcases q1 with q1 | q1
              · cases q1
                exact .inr ⟨by simp, hbl⟩
              · exact .inr ⟨by simp [q1.1], q1.2⟩
            · rintro c rfl
              have : ¬ c.dist < h.dist := by simpa using hb
              linarith
            · intro x hx hx'
              rcases List.mem_cons.mp hx with rfl | hx
              · exact hle
              · exact q3 x hx hx'
          · rw [if_neg hr2] at q1 q2
            have hbl := mt hb1.mpr hr2
            refine ⟨q1.imp_right fun q => ⟨by simp [q.1], q.2⟩, q2, ?_⟩
            intro x hx hx'
            rcases List.mem_cons.mp hx with rfl | hx
            · exact absurd hx' hbl
            · exact q3 x hx hx'
  obtain ⟨n, r, h1, h2, h3⟩ := main order fresh none (known_order ho hk)
  refine ⟨n, r, h1, ?_, ?_⟩
  · rw [h2]
    simp only [true_and]
    exact ⟨fun h x hx => h x ((ho x).mpr hx), fun h x hx => h x ((ho x).mp hx)⟩
  · intro b e
    obtain ⟨q1, _, q3⟩ := h3 b e
    rcases q1 with q1 | q1
    · cases q1
    · exact ⟨(ho b).mp q1.1, q1.2, fun x hx => q3 x ((ho x).mpr hx)⟩

/-- The world of the examples. -/
def exWorld : Mdl := ⟨0, true, true, false, false, false, 0, 1, none⟩

/-- Another model of the examples, that casts no shadow. -/
def exMdl : Mdl := ⟨1, false, false, false, false, false, 0, 1, none⟩

/-- An ordinary face of the examples. -/
def exFc : Fc := ⟨false, none, none, [119], false, false, false, 0, false, false, false, false⟩

def exQ1 : Game := ⟨false, false⟩
def exQ2 : Game := ⟨true, false⟩

def exTexel : Texel := ⟨255, 0, 51, 255⟩

/-- A triangle of the examples. -/
def exHit (m : Mdl) (f : Fc) : Hit := ⟨.face m f, 10, true, exTexel⟩

/-- What the filters say of a triangle. -/
def verdict (g : Game) (src : Option Mdl) (k : Mask) (h : Hit) : Option Bool :=
  match callHit g src k h fresh with
  | .ok r => some r.2
  | _ => none

theorem verdict_spec {g : Game} {src : Option Mdl} {k : Mask} {h : Hit} {b : Bool} (hp : h.part ≠ .leaf) (hv : verdict g src k h = some b) :
    b = true ↔ Blocks g src k h := by
  obtain ⟨r, hr, hb, _⟩ := call_spec g src k h fresh (.inr hp)
  unfold verdict at hv
  rw [hr] at hv
  cases hv
  exact hb

theorem ex_lit {g : Game} {src : Option Mdl} {k : Mask} {m : Mdl} {f : Fc} (h : verdict g src k (exHit m f) = some false) :
    Lit g src k [exHit m f] := by
  rw [lit_iff g src k _ (.inr (by simp [exHit]))]
  intro x hx hb
  rw [List.mem_singleton] at hx
  subst hx
  have := (verdict_spec (by simp [exHit]) h).mpr hb
  cases this

theorem ex_dark {g : Game} {src : Option Mdl} {k : Mask} {m : Mdl} {f : Fc} (h : verdict g src k (exHit m f) = some true) :
    Dark g src k [exHit m f] := by
  rw [dark_iff g src k _ (.inr (by simp [exHit]))]
  exact ⟨exHit m f, by simp, (verdict_spec (by simp [exHit]) h).mp rfl⟩

/-- **C212**, against the property: a liquid or sky face of a model with `_shadowself` or `_shadowworldonly` stops all light. -/
theorem limited_liquid :
    Dark exQ1 (some exWorld) 1 [exHit { exMdl with shadowself := true } { exFc with name := [42, 119] }] ∧
    Dark exQ1 (some exMdl) 1 [exHit { exMdl with id := 2, shadowworldonly := true } { exFc with name := [42, 119] }] ∧
    Dark exQ1 (some exWorld) 1 [exHit { exMdl with shadowself := true } { exFc with name := [115, 107, 121] }] :=
  ⟨ex_dark (by decide +kernel), ex_dark (by decide +kernel), ex_dark (by decide +kernel)⟩

/-- **C212**, against the property: a fence of a model with `_shadow` and `_shadowself` stops light to this model only, although
`_shadow` is set; its other faces stop all light. -/
theorem fence_of_both :
    Lit exQ1 (some exWorld) 1 [exHit { exMdl with shadow := true, shadowself := true } { exFc with name := [123, 119] }] ∧
    Dark exQ1 (some exWorld) 1 [exHit { exMdl with shadow := true, shadowself := true } exFc] ∧
    Dark exQ1 (some exWorld) 1 [exHit { exMdl with shadow := true } { exFc with name := [123, 119] }] :=
  ⟨ex_lit (by decide +kernel), ex_dark (by decide +kernel), ex_dark (by decide +kernel)⟩

/-- **C212**, against the property: an invisible face, or a liquid of the world, stops light once its channels are not the default
ones; and sky with such channels is not sky any more. -/
theorem channels_block :
    Lit exQ2 (some exWorld) 3 [exHit exWorld { exFc with nodraw := true }] ∧
    Dark exQ2 (some exWorld) 3 [exHit exWorld { exFc with nodraw := true, mask := some 3 }] ∧
    Lit exQ1 (some exWorld) 3 [exHit exWorld { exFc with name := [42, 119] }] ∧
    Dark exQ1 (some exWorld) 3 [exHit exWorld { exFc with name := [42, 119], mask := some 3 }] ∧
    isSky exQ1 (exHit exWorld { exFc with name := [115, 107, 121] }) = true ∧
    isSky exQ1 (exHit exWorld { exFc with name := [115, 107, 121], mask := some 3 }) = false :=
  ⟨ex_lit (by decide +kernel), ex_dark (by decide +kernel), ex_lit (by decide +kernel), ex_dark (by decide +kernel), by decide +kernel, by decide +kernel⟩

/-- **C212**: the opacity of a face is what `_light_alpha` sets, or else the `alpha` of its model, or else, in Quake 2, what its flags
say, of which the more transparent one counts. -/
theorem faceAlpha_value (g : Game) (m : Mdl) (f : Fc) :
    (∀ a, f.lightAlpha = some a → faceAlpha g m f = a) ∧
    (∀ a, f.lightAlpha = none → m.alpha = some a → faceAlpha g m f = a) ∧
    (f.lightAlpha = none → m.alpha = none →
      (g.q2 = false → faceAlpha g m f = 1) ∧
      (g.q2 = true → f.trans33 = true → faceAlpha g m f = 33 / 100) ∧
      (g.q2 = true → f.trans33 = false → f.trans66 = true → faceAlpha g m f = 66 / 100) ∧
      (f.trans33 = false → f.trans66 = false → faceAlpha g m f = 1)) := by
  refine ⟨fun a h => ?_, fun a h h' => ?_, fun h h' => ⟨fun hq => ?_, fun hq h3 => ?_, fun hq h3 h6 => ?_, fun h3 h6 => ?_⟩⟩ <;>
    simp [faceAlpha, *]

example : faceAlpha exQ2 exWorld { exFc with trans33 := true } = 33 / 100 :=
  ((faceAlpha_value exQ2 exWorld { exFc with trans33 := true }).2.2 rfl rfl).2.1 rfl rfl

/-- **C212**, against the property: in Quake 2 an alpha set by `_light_alpha` or `alpha` on a face without flags stops all light. -/
theorem alpha_ignored : faceAlpha exQ2 exWorld { exFc with lightAlpha := some (1 / 4) } = 1 / 4 ∧
    Dark exQ2 (some exWorld) 1 [exHit exWorld { exFc with lightAlpha := some (1 / 4) }] ∧
    Lit exQ1 (some exWorld) 1 [exHit exWorld { exFc with lightAlpha := some (1 / 4) }] :=
  ⟨rfl, ex_dark (by decide +kernel), ex_lit (by decide +kernel)⟩

/-- **C212**, against the property: a ray with a mask of its own fails on a model without faces, even if they share channels. -/
theorem leaf_error (g : Game) (src : Option Mdl) (k : Mask) (hk : k ≠ 1) (d : ℚ) (t : Texel) (n : Notes) :
    occluded g src k [⟨.leaf, d, true, t⟩] n = .error ∧ occluded g src 1 [⟨.leaf, d, true, t⟩] n = .ok (n, true) := by
  constructor
  · unfold occluded callHit
    dsimp only
    rw [if_neg hk]
    rfl
  · rfl

/-- **C213**: light that passes only faces that are no glass keeps its colour; light that passes one pane of glass, or more of the
same colour and opacity, is mixed with its product with the colour of the glass, by the opacity. -/
theorem tinted_partial (g : Game) (src : Option Mdl) (k : Mask) (hits order : List Hit) (ho : Order hits order) (hk : Known k hits)
    (n : Notes) (hn : occluded g src k order fresh = .ok (n, false)) (col : Col) :
    ((∀ h ∈ hits, ∀ c o, ¬ Tints g src k h c o) → color col n = col) ∧
    (∀ c o, (∃ h ∈ hits, Tints g src k h c o) → (∀ h ∈ hits, ∀ c' o', Tints g src k h c' o' → c' = c ∧ o' = o) →
      ∀ i, color col n i = (1 - o) * col i + o * (col i * c i)) := by
  obtain ⟨n', b, h1, _, h3⟩ := occluded_run g src k order fresh (known_order ho hk)
  rw [hn] at h1
  cases h1
  obtain ⟨hg, _⟩ := h3 rfl
  constructor
  · intro hno
    rcases hg with ⟨_, hg⟩ | ⟨h, hm, c, o, ht, _⟩
    · unfold color
      rw [hg]
      rfl
    · exact absurd ht (hno h ((ho h).mp hm) c o)
  · rintro c o ⟨h, hm, ht⟩ hall i
    rcases hg with ⟨hg, _⟩ | ⟨h', hm', c', o', ht', hg⟩
    · exact absurd ht (hg h ((ho h).mpr hm) c o)
    · obtain ⟨rfl, rfl⟩ := hall h' ((ho h').mp hm') c' o' ht'
      unfold color
      rw [hg]
      ring

/-- **C213**: glass never makes light brighter, and never negative, whatever panes it passes, in whatever order. -/
theorem never_brighter (g : Game) (src : Option Mdl) (k : Mask) (hits order : List Hit) (ho : Order hits order) (hk : Known k hits)
    (n : Notes) (hn : occluded g src k order fresh = .ok (n, false)) (col : Col) (hcol : ∀ i, 0 ≤ col i) :
    ∀ i, 0 ≤ color col n i ∧ color col n i ≤ col i := by
  obtain ⟨n', b, h1, _, h3⟩ := occluded_run g src k order fresh (known_order ho hk)
  rw [hn] at h1
  cases h1
  obtain ⟨hg, _⟩ := h3 rfl
  intro i
  rcases hg with ⟨_, hg⟩ | ⟨h, hm, c, o, ht, hg⟩
  · unfold color
    rw [hg]
    exact ⟨hcol i, le_refl _⟩
  · obtain ⟨m, f, _, _, _, _, _, _, rfl, rfl⟩ := ht
    unfold color
    rw [hg]
    dsimp only
    generalize hO : max 0 (min (if h.texel.a < 255 then (h.texel.a.toNat : ℚ) / 255 else faceAlpha g m f) 1) = O
    have h0 : 0 ≤ O := by rw [← hO]; exact le_max_left _ _
    have h1 : O ≤ 1 := by rw [← hO]; exact max_le (by norm_num) (min_le_right _ _)
    have hc : 0 ≤ h.texel.col i ∧ h.texel.col i ≤ 1 := by
      unfold Texel.col
      have := (if i = 0 then h.texel.r else if i = 1 then h.texel.g else h.texel.b).toNat_lt
      generalize (if i = 0 then h.texel.r else if i = 1 then h.texel.g else h.texel.b) = v at this ⊢
      have hv : (v.toNat : ℚ) ≤ 255 := by exact_mod_cast (by omega : v.toNat ≤ 255)
      have hv0 : (0 : ℚ) ≤ v.toNat := by positivity
      constructor
      · positivity
      · rw [div_le_one (by norm_num)]; exact hv
    have hci := hcol i
    constructor
    · have e1 : 0 ≤ col i * (1 - O) := mul_nonneg hci (by linarith)
      have e2 : 0 ≤ col i * h.texel.col i * O := mul_nonneg (mul_nonneg hci hc.1) h0
      linarith
    · have e1 : col i * h.texel.col i ≤ col i := mul_le_of_le_one_right hci hc.2
      have e2 : col i * h.texel.col i * O ≤ col i * O := mul_le_mul_of_nonneg_right e1 h0
      linarith

/-- **C213**: light that passes no switchable shadow stays in its style; light of style 0 that passes one, or more of one style,
gets this style; light of another style keeps it. -/
theorem switched_partial (g : Game) (src : Option Mdl) (k : Mask) (hits order : List Hit) (ho : Order hits order) (hk : Known k hits)
    (n : Notes) (hn : occluded g src k order fresh = .ok (n, false)) :
    ((∀ h ∈ hits, ∀ s, ¬ Switches g src k h s) → ∀ style, styleOf style n = style) ∧
    (∀ s, (∃ h ∈ hits, Switches g src k h s) → (∀ h ∈ hits, ∀ s', Switches g src k h s' → s' = s) → styleOf 0 n = s) ∧
    ∀ style, style ≠ 0 → styleOf style n = style := by
  obtain ⟨n', b, h1, _, h3⟩ := occluded_run g src k order fresh (known_order ho hk)
  rw [hn] at h1
  cases h1
  obtain ⟨_, hs⟩ := h3 rfl
  refine ⟨?_, ?_, fun style h => if_neg h⟩
  · intro hno style
    rcases hs with ⟨_, hs⟩ | ⟨h, hm, ht⟩
    · unfold styleOf
      split_ifs with h
      · rw [hs, h]; rfl
      · rfl
    · exact absurd ht (hno h ((ho h).mp hm) _)
  · rintro s ⟨h, hm, ht⟩ hall
    rcases hs with ⟨hs, _⟩ | ⟨h', hm', ht'⟩
    · exact absurd ht (hs h ((ho h).mpr hm) s)
    · exact (if_pos rfl).trans (hall h' ((ho h').mp hm') _ ht')

/-- A red pane, a green pane, the sky and two switchable walls of the examples. -/
def exRed : Hit := ⟨.face exWorld { exFc with lightAlpha := some (1 / 2) }, 10, true, ⟨255, 0, 0, 255⟩⟩
def exGreen : Hit := ⟨.face exWorld { exFc with lightAlpha := some (1 / 2) }, 20, true, ⟨0, 255, 0, 255⟩⟩
def exSky : Hit := ⟨.face exWorld { exFc with name := [115, 107, 121] }, 15, true, exTexel⟩
def exSwitch (s : Int) : Hit := exHit { exMdl with switchable := true, style := s } exFc

/-- Red and green of white light that passes these triangles in this order, and its style. -/
def exSeen (l : List Hit) : Option (ℚ × ℚ × Int) :=
  match occluded exQ1 (some exWorld) 1 l fresh with
  | .ok (n, false) => some (color (fun _ => 1) n 0, color (fun _ => 1) n 1, styleOf 0 n)
  | _ => none

/-- Red of white light of the sun that passes these triangles in this order to the sky. -/
def exSun (l : List Hit) : Option ℚ :=
  match intersect exQ1 (some exWorld) 1 l fresh none with
  | .ok (n, some h) => if isSky exQ1 h then some (color (fun _ => 1) n 0) else none
  | _ => none

/-- **C213**, against the property: of two panes of glass only the one whose filter was called last tints the light, so that its
colour depends on the order in which the ray tracer meets them. -/
theorem last_pane_wins : exSeen [exRed] = some (1, 1 / 2, 0) ∧ exSeen [exGreen] = some (1 / 2, 1, 0) ∧
    exSeen [exRed, exGreen] = some (1 / 2, 1, 0) ∧ exSeen [exGreen, exRed] = some (1, 1 / 2, 0) := by decide +kernel

/-- **C213**, against the property: of two switchable shadows only the one whose filter was called last counts; if it is switched
off, the light is there although the other one is on. -/
theorem last_switch_wins : exSeen [exSwitch 32, exSwitch 33] = some (1, 1, 33) ∧ exSeen [exSwitch 33, exSwitch 32] = some (1, 1, 32) := by
  decide +kernel

/-- **C213**, against the property: a pane of glass behind the sky tints the light of the sun, if its filter is called before that
of the sky. -/
theorem glass_behind_sky : exSun [exSky, exGreen] = some 1 ∧ exSun [exGreen, exSky] = some (1 / 2) := by decide +kernel

/-- A pane in front of a wall: the ray is occluded, and the pane blocks nothing. -/
example : ∃ n b, occluded exQ1 (some exWorld) 1 [exRed, exHit exWorld exFc] fresh = .ok (n, b) ∧
    (b = true ↔ ∃ h ∈ [exRed, exHit exWorld exFc], Blocks exQ1 (some exWorld) 1 h) :=
  occluded_iff _ _ _ _ _ (fun _ => Iff.rfl) (.inl rfl)

example : Lit exQ1 (some exWorld) 1 [exRed, exSwitch 32] := by
  apply passes
  intro h hm
  simp only [List.mem_cons, List.not_mem_nil, or_false] at hm
  rcases hm with rfl | rfl
  · exact ⟨_, _, rfl, .inr (.inr (.inr (.inr (.inl (by unfold Glass; decide +kernel)))))⟩
  · exact ⟨_, _, rfl, .inr (.inr (.inr (.inl rfl)))⟩

example : Dark exQ1 (some exMdl) 5 [exRed, exHit exWorld exFc] :=
  solid_blocks _ _ _ _ (.inr (by simp [exRed, exHit])) (exHit exWorld exFc) (by simp) exWorld exFc rfl (.inl rfl) rfl rfl
    (by unfold Special; simp [exWorld, exFc]) (by unfold Hidden; decide) (by unfold Passable; decide +kernel) (by unfold Liquid; decide)
    ⟨0, by decide, by decide⟩

example : Dark exQ1 none 1 [exHit exWorld { exFc with name := [123] }] ∧
    Lit exQ1 none 1 [⟨.face exWorld { exFc with name := [123] }, 10, true, ⟨0, 0, 0, 0⟩⟩] :=
  ⟨(fence_blocks _ _ _ _ exWorld { exFc with name := [123] } rfl rfl rfl rfl rfl rfl (by unfold Hidden; decide) (by unfold Fence; decide)
      (by unfold Glass; decide +kernel) shares_one).1 rfl,
    (fence_blocks _ _ _ _ exWorld { exFc with name := [123] } rfl rfl rfl rfl rfl rfl (by unfold Hidden; decide) (by unfold Fence; decide)
      (by unfold Glass; decide +kernel) shares_one).2 (by decide)⟩

example : Lit exQ1 (some exWorld) 1 [exHit { exMdl with shadowself := true } exFc] :=
  limited_shadow_partial _ _ _ _ (by
    intro h hm
    rw [List.mem_singleton] at hm
    subst hm
    refine ⟨_, _, rfl, rfl, rfl, .inl ⟨rfl, ?_⟩, .inr (.inr ⟨by unfold Liquid; decide, ?_⟩)⟩
    · intro s e
      cases e
      decide
    · rw [sky_iff]
      decide)

example : exSeen [exRed, exHit exMdl exFc, exRed, exSwitch 32] = some (1, 1 / 2, 32) := by decide +kernel

end Verif.Shadow
