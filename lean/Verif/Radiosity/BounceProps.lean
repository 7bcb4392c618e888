import Verif.Radiosity.SurfaceProps

/-!
Bounced light (C197).
-/

namespace Verif.Radiosity

open Verif.Geom Verif.SurfLights

variable {K : Type} [Field K] [LinearOrder K]

/-- A face that does not bounce light is left alone. -/
theorem bounce_skips (e : Env K) (styled : Bool) (f : BFace K) (depth : Nat) (s : Surf K)
    (h : f.solid = false ∨ f.lightmapped = false ∨ f.skip = true ∨ f.noBounce = true ∨ f.lit = true ∨ s.maps = [] ∨
      f.area < 1) : bounceFace e styled f depth s = .ok (s, false) := by
  unfold bounceFace
  by_cases hs : shouldBounce f = true
  · rw [hs]
    simp only [Bool.not_true, Bool.false_eq_true, if_false]
    cases hm : s.maps with
    | nil => rfl
    | cons m ms =>
      simp only
      have ha : f.area < 1 := by
        unfold shouldBounce at hs
        simp only [Bool.and_eq_true, Bool.not_eq_true'] at hs
        obtain ⟨⟨⟨⟨a, b⟩, c⟩, d⟩, g⟩ := hs
        rcases h with h | h | h | h | h | h | h
        · rw [h] at a; cases a
        · rw [h] at b; cases b
        · rw [h] at c; cases c
        · rw [h] at d; cases d
        · rw [h] at g; cases g
        · rw [hm] at h; cases h
        · exact h
      rw [if_pos ha]
  · rw [if_pos (by simpa using hs)]

open Classical in
theorem collect_fst (styled : Bool) (n : Nat) (ms : List (Lm K)) (hn : (ms.map (·.style)).Nodup) :
    (collect styled n ms).1 = (ms.filter fun m => decide (Counted styled m ∧ m.bounce ≠ ⟨0, 0, 0⟩)).map
      fun m => (m.style, scale (1 / (n : K)) m.bounce) := by
  induction ms with
  | nil => rfl
  | cons m ms ih =>
    rw [List.map_cons, List.nodup_cons] at hn
    have ih := ih hn.2
    unfold collect
    simp only
    by_cases h1 : m.style ≠ 0 ∧ styled = false
    · rw [if_pos h1, ih, List.filter_cons_of_neg]
      intro h
      obtain ⟨h | h, -⟩ := of_decide_eq_true h
      · exact h1.1 h
      · rw [h1.2] at h; cases h
    · have hc : Counted styled m := by
        by_cases h0 : m.style = 0
        · exact Or.inl h0
        · refine Or.inr ?_
          by_contra h
          exact h1 ⟨h0, by simpa using h⟩
      rw [if_neg h1]
      by_cases h2 : m.bounce = ⟨0, 0, 0⟩
      · rw [if_pos h2, ih, List.filter_cons_of_neg]
        simp [h2]
      · rw [if_neg h2, List.filter_cons_of_pos (by simp [hc, h2]), List.map_cons, ih, if_neg]
        rw [List.any_eq_true]
        rintro ⟨p, hp, hps⟩
        obtain ⟨m', hm', rfl⟩ := List.mem_map.1 hp
        have : m'.style = m.style := by simpa using hps
        exact hn.1 (List.mem_map.2 ⟨m', (List.mem_filter.1 hm').1, this⟩)

theorem collect_snd (styled : Bool) (n : Nat) (ms : List (Lm K)) :
    List.Forall₂ (Taken styled) ms (collect styled n ms).2 := by
  induction ms with
  | nil => exact List.Forall₂.nil
  | cons m ms ih =>
    unfold collect
    simp only
    by_cases h1 : m.style ≠ 0 ∧ styled = false
    · rw [if_pos h1]
      refine List.Forall₂.cons ⟨rfl, rfl, ?_, fun _ => rfl⟩ ih
      rintro (h | h)
      · exact absurd h h1.1
      · rw [h1.2] at h; cases h
    · have hc : Counted styled m := by
        by_cases h0 : m.style = 0
        · exact Or.inl h0
        · refine Or.inr ?_
          by_contra h
          exact h1 ⟨h0, by simpa using h⟩
      rw [if_neg h1]
      have ht : Taken styled m { m with bounce := ⟨0, 0, 0⟩ } := ⟨rfl, rfl, fun _ => rfl, fun h => absurd hc h⟩
      split
      · exact List.Forall₂.cons ht ih
      · split
        · exact List.Forall₂.cons ht ih
        · exact List.Forall₂.cons ht ih

/-- The setting of bounced light. -/
def bounceSetting (f : BFace K) (depth k : Nat) (style : Int) (w : Vec K) : Setting K :=
  ⟨some depth, style, false, false, vmax w * f.area, vmax w * f.area / k, capped w⟩

/-- The colour with the tint of the face. -/
def tinted (f : BFace K) (c : Vec K) : Vec K := ⟨c.x * f.blend.x, c.y * f.blend.y, c.z * f.blend.z⟩

open Classical in
/-- What one pass adds. -/
theorem emitAll_ok (e : Env K) (f : BFace K) (depth : Nat) (hp : (bouncePoints e f).2 ≠ []) (cs : List (Int × Vec K))
    (v : Option (Vpl K)) :
    let new := cs.filter fun c => decide (f.emissive = true ∧ 0 < vmax (tinted f c.2))
    ∃ v', emitAll e f depth cs v = .ok v' ∧ (new = [] → v' = v) ∧
      (v ≠ none → points v' = points v) ∧ (v = none → new ≠ [] → points v' = (bouncePoints e f).2) ∧
      settings v' = settings v ++ new.map fun c => bounceSetting f depth (points v').length c.1 (tinted f c.2) := by
  induction cs generalizing v with
  | nil =>
    refine ⟨v, rfl, fun _ => rfl, fun _ => rfl, fun _ h => absurd rfl h, ?_⟩
    simp
  | cons c cs ih =>
    obtain ⟨style, c⟩ := c
    simp only at ih ⊢
    by_cases hb : f.emissive = true ∧ 0 < vmax (tinted f c)
    · rw [List.filter_cons_of_pos (by simpa using hb)]
      obtain ⟨l, hl, hlp, hls⟩ : ∃ l, makeBounceLight e f depth v style (tinted f c) = .ok (some l) ∧
          (l.points = if v = none then (bouncePoints e f).2 else points v) ∧
          l.styles = settings v ++ [bounceSetting f depth l.points.length style (tinted f c)] := by
        unfold makeBounceLight
        rw [if_neg (by simp [hb.1])]
        simp only
        rw [if_neg (not_le.2 hb.2)]
        cases v with
        | some l => exact ⟨_, rfl, by simp [points], rfl⟩
        | none =>
          simp only
          rw [if_neg (by simpa using hp)]
          exact ⟨_, rfl, by simp, rfl⟩
      obtain ⟨v', h1, h2, h3, h4, h5⟩ := ih (some l)
      refine ⟨v', ?_, ?_, ?_, ?_, ?_⟩
      · change (do let v' ← makeBounceLight e f depth v style (tinted f c); emitAll e f depth cs v') = _
        rw [hl, Outcome.ok_bind, h1]
      · intro h; cases h
      · intro hv
        rw [h3 (by simp)]
        change l.points = _
        rw [hlp, if_neg hv]
      · intro hv _
        rw [h3 (by simp)]
        change l.points = _
        rw [hlp, if_pos hv]
      · have e3 : points v' = l.points := h3 (by simp)
        rw [h5, e3]
        change l.styles ++ _ = _
        rw [hls]
        simp
    · rw [List.filter_cons_of_neg (by simpa using hb)]
      have : makeBounceLight e f depth v style (tinted f c) = .ok v := by
        unfold makeBounceLight
        by_cases he : f.emissive = true
        · rw [if_neg (by simp [he])]
          simp only
          rw [if_pos (not_lt.1 fun h => hb ⟨he, h⟩)]
        · rw [if_pos (by simpa using he)]
      obtain ⟨v', h1, h2⟩ := ih v
      refine ⟨v', ?_, h2⟩
      change (do let v' ← makeBounceLight e f depth v style (tinted f c); emitAll e f depth cs v') = _
      rw [this, Outcome.ok_bind, h1]

omit [LinearOrder K] in
theorem tinted_scale (f : BFace K) (n : Nat) (m : Lm K) : tinted f (scale (1 / n) m.bounce) = sent f n m := by
  simp only [tinted, scale, sent, mul_one_div]

open Classical in
/-- One pass over a face that bounces light: the light collected for the styles that are bounced is taken from its light
maps and given off, once. -/
theorem bounce_pass_partial [IsStrictOrderedRing K] (e : Env K) (styled : Bool) (f : BFace K) (depth : Nat) (s : Surf K)
    (m : Lm K) (ms : List (Lm K))
    (hs : f.solid = true ∧ f.lightmapped = true ∧ f.skip = false ∧ f.noBounce = false ∧ f.lit = false)
    (hm : s.maps = m :: ms) (ha : 1 ≤ f.area) (hn : (s.maps.map (·.style)).Nodup)
    (hp : (bouncePoints e f).2 ≠ []) (hv : ∀ l, s.vpl = some l → l.points ≠ []) :
    ∃ s' r, bounceFace e styled f depth s = .ok (s', r) ∧
      (r = true ↔ ∃ m' ∈ s.maps, Counted styled m' ∧ m'.bounce ≠ ⟨0, 0, 0⟩) ∧
      List.Forall₂ (Taken styled) s.maps s'.maps ∧
      (s.vpl ≠ none → points s'.vpl = points s.vpl) ∧
      (s.vpl = none → settings s'.vpl ≠ [] → points s'.vpl = (bouncePoints e f).2) ∧
      ∃ new, settings s'.vpl = settings s.vpl ++ new ∧
        List.Forall₂ (Bounced f m.samples depth (points s'.vpl).length)
          (s.maps.filter fun m' => decide (Shines styled f m.samples m')) new := by
  have hsb : shouldBounce f = true := by
    unfold shouldBounce
    simp [hs]
  have e1 := collect_fst styled m.samples s.maps hn
  have e2 := collect_snd styled m.samples s.maps
  have hr : (collect styled m.samples s.maps).1 = [] ↔ ¬ ∃ m' ∈ s.maps, Counted styled m' ∧ m'.bounce ≠ ⟨0, 0, 0⟩ := by
    rw [e1, List.map_eq_nil_iff, List.filter_eq_nil_iff]
    simp
  have zero : ∀ m' : Lm K, m'.bounce = ⟨0, 0, 0⟩ → ¬ 0 < vmax (sent f m.samples m') := by
    intro m' h0
    simp [sent, h0, vmax]
  have shines : ∀ m', Shines styled f m.samples m' ↔
      (Counted styled m' ∧ m'.bounce ≠ ⟨0, 0, 0⟩) ∧ (f.emissive = true ∧ 0 < vmax (sent f m.samples m')) := by
    intro m'
    unfold Shines
    constructor
    · rintro ⟨h1, h2, b, h3, h4⟩
      rw [brightest_iff] at h3
      subst h3
      exact ⟨⟨h1, fun h0 => zero m' h0 h4⟩, h2, h4⟩
    · rintro ⟨⟨h1, -⟩, h2, h4⟩
      exact ⟨h1, h2, _, (brightest_iff _ _).2 rfl, h4⟩
  by_cases hc : (collect styled m.samples s.maps).1 = []
  · refine ⟨{ s with maps := (collect styled m.samples s.maps).2 }, false, ?_, ?_, e2, fun _ => rfl, ?_, [], ?_, ?_⟩
    · unfold bounceFace
      rw [if_neg (by simp [hsb])]
      rw [hm] at hc ⊢
      simp only
      rw [if_neg (not_lt.2 ha), if_pos (by simp [hc])]
    · simp only [Bool.false_eq_true, false_iff]
      exact hr.1 hc
    · intro h1 h2
      rw [h1] at h2
      exact absurd rfl h2
    · simp
    · have : s.maps.filter (fun m' => decide (Shines styled f m.samples m')) = [] := by
        rw [List.filter_eq_nil_iff]
        intro m' hm' h
        rw [decide_eq_true_eq, shines] at h
        exact hr.1 hc ⟨m', hm', h.1⟩
      rw [this]
      exact List.Forall₂.nil
  · obtain ⟨v', h1, h2, h3, h4, h5⟩ := emitAll_ok e f depth hp (collect styled m.samples s.maps).1 s.vpl
    have hnew : ((collect styled m.samples s.maps).1.filter fun c => decide (f.emissive = true ∧ 0 < vmax (tinted f c.2)))
        = (s.maps.filter fun m' => decide (Shines styled f m.samples m')).map
          fun m' => (m'.style, scale (1 / (m.samples : K)) m'.bounce) := by
      rw [e1, List.filter_map, List.filter_filter]
      congr 1
      apply List.filter_congr
      intro m' _
      simp only [Function.comp, tinted_scale]
      rw [Bool.eq_iff_iff, Bool.and_eq_true, decide_eq_true_eq, decide_eq_true_eq, decide_eq_true_eq, shines, and_comm]
    rw [hnew, List.map_map] at h5
    refine ⟨⟨(collect styled m.samples s.maps).2, v'⟩, true, ?_, ?_, e2, h3, ?_, _, h5, ?_⟩
    · unfold bounceFace
      rw [if_neg (by simp [hsb])]
      rw [hm] at hc h1 ⊢
      simp only
      rw [if_neg (not_lt.2 ha), if_neg (by simpa using hc), h1, Outcome.ok_bind]
    · simp only [true_iff]
      by_contra h
      exact hc (hr.2 h)
    · intro g1 g2
      refine h4 g1 fun h0 => g2 ?_
      change settings v' = []
      rw [h2 h0, g1]
      rfl
    · rw [List.forall₂_map_right_iff]
      refine List.forall₂_same.2 fun m' hm' => ?_
      have hsh := (List.mem_filter.1 hm').2
      have hpt : (points v').length ≠ 0 := by
        intro h0
        have h0 := List.length_eq_zero_iff.1 h0
        cases hvv : s.vpl with
        | some l =>
          rw [h3 (by rw [hvv]; simp), hvv] at h0
          exact hv l hvv h0
        | none =>
          rw [h4 hvv] at h0
          · exact hp h0
          · rw [hnew]
            intro hnil
            rw [List.map_eq_nil_iff] at hnil
            rw [hnil] at hm'
            cases hm'
      refine ⟨rfl, rfl, rfl, ?_⟩
      intro b hb
      rw [brightest_iff] at hb
      subst hb
      simp only [Function.comp, tinted_scale]
      exact given_eq _ (Nat.pos_of_ne_zero hpt) f.area (sent f m.samples m') _ rfl rfl

end Verif.Radiosity
