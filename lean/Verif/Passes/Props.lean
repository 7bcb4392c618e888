import Verif.Passes.Lemmas

/-!
C217: which lights are cast on a face, how often and in which order.
-/

namespace Verif.Passes

open Spec

theorem lightFace_ok {c lamps ss f steps} (h : lightFace c lamps ss f = .ok steps) (hl : f.lightmapped = true) :
    steps = direct c lamps ss f ++ (List.range (passes c)).flatMap (indirect c f) ++ (if c.nolighting then [] else post c lamps ss f) := by
  unfold lightFace at h
  rw [if_neg (by rw [hl]; exact Bool.noConfusion)] at h
  by_cases hs : hasSurface f = false
  · rw [if_pos hs] at h; cases h
  · rw [if_neg hs] at h; exact (Outcome.ok.inj h).symm

/-! ### Which faces -/

/-- **C217**: a face is lit if it is lightmapped, and the program goes on unless a lightmapped face has no model, fewer than three edges or
texture axes that cannot be inverted. -/
theorem lightFace_error_iff (c : Conf) (lamps : List Lamp) (ss : List ℚ) (f : Face) :
    lightFace c lamps ss f = .error ↔ f.lightmapped = true ∧ (f.hasModel = false ∨ f.edges < 3 ∨ f.axesOk = false) := by
  unfold lightFace hasSurface
  cases hl : f.lightmapped <;> cases hm : f.hasModel <;> cases he : f.emissive <;> cases ha : f.axesOk <;>
    by_cases hk : f.edges < 3 <;> simp [hk]

/-- **C217** (finding): such a face, which the program reports and means to skip, ends the whole run, whatever the other faces are. -/
theorem bad_face_ends (c : Conf) (lamps : List Lamp) (ss : List ℚ) (f : Face) (hl : f.lightmapped = true)
    (hb : f.hasModel = false ∨ f.edges < 3 ∨ f.axesOk = false) : ∀ fs : List Face, f ∈ fs → lightFaces c lamps ss fs = .error := by
  intro fs
  induction fs with
  | nil => intro h; cases h
  | cons a t ih =>
    intro h
    unfold lightFaces
    rcases List.mem_cons.1 h with rfl | h
    · rw [(lightFace_error_iff c lamps ss f).2 ⟨hl, hb⟩]; rfl
    · cases ha : lightFace c lamps ss a with
      | ok s => rw [Outcome.ok_bind, ih h]; rfl
      | error => rfl
      | ub =>
        exfalso
        unfold lightFace at ha
        split at ha
        · cases ha
        · split at ha <;> cases ha

/-- And only such a face. -/
theorem good_faces (c : Conf) (lamps : List Lamp) (ss : List ℚ) : ∀ fs : List Face,
    (∀ f ∈ fs, f.lightmapped = true → f.hasModel = true ∧ 3 ≤ f.edges ∧ f.axesOk = true) →
    ∃ r, lightFaces c lamps ss fs = .ok r ∧ r.length = fs.length := by
  intro fs
  induction fs with
  | nil => intro _; exact ⟨[], rfl, rfl⟩
  | cons a t ih =>
    intro h
    obtain ⟨r, hr, hn⟩ := ih fun f hf => h f (List.mem_cons_of_mem _ hf)
    have hne : lightFace c lamps ss a ≠ .error := by
      intro he
      obtain ⟨hl, hb⟩ := (lightFace_error_iff c lamps ss a).1 he
      obtain ⟨h1, h2, h3⟩ := h a (by simp) hl
      rcases hb with hb | hb | hb
      · rw [h1] at hb; cases hb
      · omega
      · rw [h3] at hb; cases hb
    unfold lightFaces
    cases ha : lightFace c lamps ss a with
    | ok s => rw [Outcome.ok_bind, hr, Outcome.ok_bind]; exact ⟨_, rfl, by simp [hn]⟩
    | error => exact absurd ha hne
    | ub =>
      exfalso
      unfold lightFace at ha
      split at ha
      · cases ha
      · split at ha <;> cases ha

/-! ### Which lights, and how often -/

theorem not_mem_of {s : Step} {l : List Step} (h : ∀ x ∈ l, x ≠ s) : l.count s = 0 := List.count_eq_zero.2 fun hm => h s hm rfl

open Classical in
/-- **C217**: a light of positive or negative light that is static and no local minimum is cast once on a lightmapped face, if the face
does not ignore lights, in the normal mode; negative lights only if lighting is not turned off. All others are not cast. -/
theorem entity_once (c : Conf) (lamps : List Lamp) (ss : List ℚ) (f : Face) (steps : List Step) (h : lightFace c lamps ss f = .ok steps)
    (hl : f.lightmapped = true) (i : ℕ) :
    steps.count (.entity i) =
      if c.debug = .none ∧ f.ignores = false ∧ Cast lamps (fun x => x > 0 ∨ (x < 0 ∧ c.nolighting = false)) i then 1 else 0 := by
  rw [lightFace_ok h hl, List.count_append, List.count_append]
  have hind : ((List.range (passes c)).flatMap (indirect c f)).count (.entity i) = 0 := by
    apply not_mem_of
    intro x hx he
    subst he
    obtain ⟨d, -, hd⟩ := List.mem_flatMap.1 hx
    unfold indirect at hd
    split at hd
    · cases List.mem_singleton.1 hd
    · cases hd
  have hdbg : ∀ d, ((if c.debug = d then [Step.debug d] else []) : List Step).count (.entity i) = 0 := by
    intro d; split <;> simp
  have hdir : (direct c lamps ss f).count (.entity i) = if c.debug = .none ∧ f.ignores = false ∧ Cast lamps (fun x => x > 0) i then 1 else 0 := by
    unfold direct
    simp only [List.count_append, hdbg, Nat.add_zero]
    by_cases hn : c.debug = .none
    · rw [if_pos hn]
      by_cases hi : f.ignores = false
      · rw [if_pos hi, if_pos hi]
        simp only [List.count_append, count_entities, List.count_eq_zero.2 (entity_not_suns _ ss i), hn, hi, true_and, decide_eq_true_eq]
        simp
      · rw [if_neg hi, if_neg hi, if_neg (fun h => hi h.2.1)]; rfl
    · rw [if_neg hn, if_neg (fun h => hn h.1)]; rfl
  have hpost : (post c lamps ss f).count (.entity i) = if c.debug = .none ∧ f.ignores = false ∧ Cast lamps (fun x => x < 0) i then 1 else 0 := by
    unfold post
    simp only [List.count_append, hdbg, Nat.add_zero]
    by_cases hn : c.debug = .none
    · rw [if_pos hn]
      simp only [List.count_append]
      have h1 : (minimums c f).count (.entity i) = 0 := by
        apply not_mem_of
        intro x hx he
        subst he
        rcases mem_minimums hx with ⟨_, _, h⟩ | h <;> cases h
      rw [h1]
      by_cases hi : f.ignores = false
      · rw [if_pos hi]
        simp only [List.count_append, count_entities, List.count_eq_zero.2 (entity_not_suns _ ss i), hn, hi, true_and, decide_eq_true_eq]
        simp
      · rw [if_neg hi, if_neg (fun h => hi h.2.1)]; rfl
    · rw [if_neg hn, if_neg (fun h => hn h.1)]; rfl
  rw [hind, hdir]
  have hcast : Cast lamps (fun x => x > 0 ∨ (x < 0 ∧ c.nolighting = false)) i
      ↔ Cast lamps (fun x => x > 0) i ∨ (Cast lamps (fun x => x < 0) i ∧ c.nolighting = false) := by
    unfold Cast
    constructor
    · rintro ⟨l, h1, h2, h3, h4 | ⟨h4, h5⟩⟩
      · exact Or.inl ⟨l, h1, h2, h3, h4⟩
      · exact Or.inr ⟨⟨l, h1, h2, h3, h4⟩, h5⟩
    · rintro (⟨l, h1, h2, h3, h4⟩ | ⟨⟨l, h1, h2, h3, h4⟩, h5⟩)
      · exact ⟨l, h1, h2, h3, Or.inl h4⟩
      · exact ⟨l, h1, h2, h3, Or.inr ⟨h4, h5⟩⟩
  have hex : ¬ (Cast lamps (fun x => x > 0) i ∧ Cast lamps (fun x => x < 0) i) := by
    rintro ⟨⟨l, h1, -, -, h4⟩, ⟨l', h1', -, -, h4'⟩⟩
    rw [h1] at h1'
    have := Option.some.inj h1'
    subst this
    exact absurd (lt_trans h4 h4') (lt_irrefl _)
  by_cases hn : c.debug = .none ∧ f.ignores = false
  · simp only [hn.1, hn.2, true_and, hcast]
    cases hno : c.nolighting
    · rw [if_neg Bool.false_ne_true, hpost]
      simp only [hn.1, hn.2, true_and, and_true]
      by_cases ha : Cast lamps (fun x => x > 0) i
      · rw [if_pos ha, if_neg (fun hb => hex ⟨ha, hb⟩), if_pos (Or.inl ha)]
      · rw [if_neg ha]
        by_cases hb : Cast lamps (fun x => x < 0) i
        · rw [if_pos hb, if_pos (Or.inr hb)]
        · rw [if_neg hb, if_neg (fun h => h.elim ha hb)]
    · rw [if_pos rfl]
      simp
  · have e1 : (if c.debug = .none ∧ f.ignores = false ∧ Cast lamps (fun x => x > 0) i then 1 else 0) = 0 := if_neg fun h => hn ⟨h.1, h.2.1⟩
    have e2 : (if c.debug = .none ∧ f.ignores = false ∧ Cast lamps (fun x => x < 0) i then 1 else 0) = 0 := if_neg fun h => hn ⟨h.1, h.2.1⟩
    have e3 : (if c.debug = .none ∧ f.ignores = false ∧ Cast lamps (fun x => x > 0 ∨ (x < 0 ∧ c.nolighting = false)) i then 1 else 0) = 0 :=
      if_neg fun h => hn ⟨h.1, h.2.1⟩
    rw [e1, e3]
    cases hno : c.nolighting
    · rw [if_neg Bool.false_ne_true, hpost, e2]
    · rw [if_pos rfl]; rfl

/-! ### The order -/

/-- The place of a step: what adds light comes first, then local minimum light, bounced light, other minimum light, and last what
takes light. -/
def place (lamps : List Lamp) (ss : List ℚ) : Step → ℕ
  | .entity i => if (lamps[i]?.any fun l => decide (l.light > 0)) = true then 0 else 4
  | .sun i => if (ss[i]?.any fun v => decide (v > 0)) = true then 0 else 4
  | .surface => 0
  | .localMin => 1
  | .bounced _ => 2
  | .min _ _ => 3
  | .autoMin => 3
  | .debug _ => 5

theorem place_entities (lamps : List Lamp) (ss : List ℚ) {s : Step} :
    (s ∈ entities (fun x => decide (x > 0)) lamps → place lamps ss s = 0) ∧ (s ∈ entities (fun x => decide (x < 0)) lamps → place lamps ss s = 4) := by
  constructor
  · intro h
    obtain ⟨i, rfl, l, hl, -, -, hp⟩ := mem_entities h
    simp only [place]
    rw [hl, if_pos (by simpa using hp)]
  · intro h
    obtain ⟨i, rfl, l, hl, -, -, hp⟩ := mem_entities h
    simp only [place]
    rw [hl, if_neg]
    simp only [decide_eq_true_eq] at hp
    simp only [Option.any_some, decide_eq_true_eq]
    exact not_lt.2 (le_of_lt hp)

theorem place_suns (lamps : List Lamp) (ss : List ℚ) {s : Step} :
    (s ∈ suns (fun x => decide (x > 0)) ss → place lamps ss s = 0) ∧ (s ∈ suns (fun x => decide (x < 0)) ss → place lamps ss s = 4) := by
  constructor
  · intro h
    obtain ⟨i, v, rfl, hl, hp⟩ := mem_suns h
    simp only [place]
    rw [hl, if_pos (by simpa using hp)]
  · intro h
    obtain ⟨i, v, rfl, hl, hp⟩ := mem_suns h
    simp only [place]
    rw [hl, if_neg]
    simp only [decide_eq_true_eq] at hp
    simp only [Option.any_some, decide_eq_true_eq]
    exact not_lt.2 (le_of_lt hp)

/-- Steps all in places between `lo` and `hi`, in order. -/
def Within (lamps : List Lamp) (ss : List ℚ) (lo hi : ℕ) (l : List Step) : Prop :=
  l.Pairwise (fun a b => place lamps ss a ≤ place lamps ss b) ∧ ∀ s ∈ l, lo ≤ place lamps ss s ∧ place lamps ss s ≤ hi

theorem within_append {lamps ss lo m m' hi a b} (ha : Within lamps ss lo m a) (hb : Within lamps ss m' hi b) (hm : m ≤ m') (h1 : lo ≤ m') (h2 : m ≤ hi) :
    Within lamps ss lo hi (a ++ b) := by
  refine ⟨List.pairwise_append.2 ⟨ha.1, hb.1, fun x hx y hy => le_trans (ha.2 x hx).2 (le_trans hm (hb.2 y hy).1)⟩, ?_⟩
  intro s hs
  rcases List.mem_append.1 hs with hs | hs
  · exact ⟨(ha.2 s hs).1, le_trans (ha.2 s hs).2 h2⟩
  · exact ⟨le_trans h1 (hb.2 s hs).1, (hb.2 s hs).2⟩

theorem within_const {lamps ss k l} (h : ∀ s ∈ l, place lamps ss s = k) : Within lamps ss k k l := by
  refine ⟨?_, fun s hs => by rw [h s hs]; exact ⟨le_refl _, le_refl _⟩⟩
  rw [List.pairwise_iff_forall_sublist]
  intro a b hs
  have ha : a ∈ l := hs.subset (by simp)
  have hb : b ∈ l := hs.subset (by simp)
  rw [h a ha, h b hb]

theorem within_mono {lamps ss lo hi lo' hi' l} (h : Within lamps ss lo hi l) (h1 : lo' ≤ lo) (h2 : hi ≤ hi') : Within lamps ss lo' hi' l :=
  ⟨h.1, fun s hs => ⟨le_trans h1 (h.2 s hs).1, le_trans (h.2 s hs).2 h2⟩⟩

/-- **C217**: on every face, everything that adds light comes before everything that takes light, and minimum light comes between: after
all that adds, bounced light too, and before all that takes. Only local minimum light comes before bounced light. -/
theorem steps_ordered (c : Conf) (lamps : List Lamp) (ss : List ℚ) (f : Face) (steps : List Step) (h : lightFace c lamps ss f = .ok steps)
    (hl : f.lightmapped = true) (hd : c.debug = .none) : steps.Pairwise (fun a b => place lamps ss a ≤ place lamps ss b) := by
  rw [lightFace_ok h hl]
  have hdir : Within lamps ss 0 1 (direct c lamps ss f) := by
    unfold direct
    simp only [hd, if_true, reduceCtorEq, if_false, List.append_nil]
    apply within_append (m := 0) (m' := 1)
    · apply within_const
      intro s hs
      split at hs
      · rcases List.mem_append.1 hs with hs | hs
        · rcases List.mem_append.1 hs with hs | hs
          · exact (place_entities lamps ss).1 hs
          · exact (place_suns lamps ss).1 hs
        · rw [List.mem_singleton.1 hs]; rfl
      · cases hs
    · apply within_const
      intro s hs
      split at hs
      · rw [List.mem_singleton.1 hs]; rfl
      · cases hs
    all_goals omega
  have hind : Within lamps ss 2 2 ((List.range (passes c)).flatMap (indirect c f)) := by
    apply within_const
    intro s hs
    obtain ⟨d, -, hs⟩ := List.mem_flatMap.1 hs
    unfold indirect at hs
    split at hs
    · rw [List.mem_singleton.1 hs]; rfl
    · cases hs
  have hpost : Within lamps ss 3 4 (post c lamps ss f) := by
    unfold post
    simp only [hd, if_true, reduceCtorEq, if_false, List.append_nil]
    apply within_append (m := 3) (m' := 4)
    · apply within_const
      intro s hs
      rcases mem_minimums hs with ⟨_, _, rfl⟩ | rfl <;> rfl
    · apply within_const
      intro s hs
      split at hs
      · rcases List.mem_append.1 hs with hs | hs
        · exact (place_entities lamps ss).2 hs
        · exact (place_suns lamps ss).2 hs
      · cases hs
    all_goals omega
  have h1 := within_append hdir hind (by omega) (by omega) (by omega)
  cases c.nolighting
  · rw [if_neg Bool.false_ne_true]
    exact (within_append h1 hpost (by omega) (by omega) (by omega)).1
  · rw [if_pos rfl, List.append_nil]; exact h1.1

/-! ### What comes out -/

/-- **C217**: the light of a sample of a face of the world that is no surface light is what all positive lights add, raised to the local
minimum light, plus what bounces, raised to the minimum light (the greater of the face's and the world's), plus what the negative lights
add (which is negative). -/
theorem result_value (c : Conf) (lamps : List Lamp) (ss : List ℚ) (f : Face) (steps : List Step) (h : lightFace c lamps ss f = .ok steps)
    (hl : f.lightmapped = true) (hd : c.debug = .none) (hn : c.nolighting = false) (hi : f.ignores = false) (hw : f.world = true)
    (hg : f.glow = none) (e : Effect) (hpos : 0 ≤ max (lampSum e (fun x => decide (x > 0)) lamps +
      sunSum e (fun x => decide (x > 0)) ss + e.surface) e.localMin + ((List.range (Nat.min c.bounce c.made)).map e.bounced).sum) :
    result e steps =
      max (max (lampSum e (fun x => decide (x > 0)) lamps + sunSum e (fun x => decide (x > 0)) ss + e.surface) e.localMin
          + ((List.range (Nat.min c.bounce c.made)).map e.bounced).sum) (max f.minlight c.minlight)
        + lampSum e (fun x => decide (x < 0)) lamps + sunSum e (fun x => decide (x < 0)) ss := by
  have hp : passes c = Nat.min c.bounce c.made := by
    unfold passes
    rw [if_pos ⟨Or.inl hd, hn⟩]
  have hind : indirect c f = fun d => [Step.bounced d] := by
    funext d
    unfold indirect
    rw [if_pos ⟨hd, hi⟩]
  rw [lightFace_ok h hl, hn, if_neg Bool.false_ne_true, hp, hind]
  unfold result
  rw [List.foldl_append, List.foldl_append]
  have h1 : (direct c lamps ss f).foldl (apply e) 0
      = max (lampSum e (fun x => decide (x > 0)) lamps + sunSum e (fun x => decide (x > 0)) ss + e.surface) e.localMin := by
    unfold direct
    simp only [hd, hi, if_true, reduceCtorEq, if_false, List.append_nil, List.foldl_append, fold_entities, fold_suns, List.foldl_cons, List.foldl_nil,
      apply, zero_add]
  rw [h1, fold_bounces]
  unfold post minimums
  simp only [hd, hi, hw, hg, if_true, reduceCtorEq, if_false, List.append_nil, List.foldl_append, fold_entities, fold_suns, Bool.true_eq_false]
  have hmax : (if f.minlight > c.minlight then f.minlight else c.minlight) = max f.minlight c.minlight := by
    by_cases hgt : f.minlight > c.minlight
    · rw [if_pos hgt, max_eq_left (le_of_lt hgt)]
    · rw [if_neg hgt, max_eq_right (not_lt.1 hgt)]
  rw [hmax]
  by_cases hz : max f.minlight c.minlight ≠ 0
  · rw [if_pos hz]
    simp only [List.foldl_cons, List.foldl_nil, apply, if_true]
  · rw [if_neg hz]
    have hz : max f.minlight c.minlight = 0 := not_not.1 hz
    simp only [List.foldl_nil]
    rw [hz, max_eq_left hpos]

/-- A face that ignores lights has minimum light only. -/
theorem ignoring_dark (c : Conf) (lamps : List Lamp) (ss : List ℚ) (f : Face) (steps : List Step) (h : lightFace c lamps ss f = .ok steps)
    (hl : f.lightmapped = true) (hd : c.debug = .none) (hi : f.ignores = true) :
    ∀ s ∈ steps, (∃ style v, s = .min style v) ∨ s = .autoMin := by
  rw [lightFace_ok h hl]
  have hind : (List.range (passes c)).flatMap (indirect c f) = [] := by
    rw [List.flatMap_eq_nil_iff]
    intro d _
    unfold indirect
    rw [if_neg (fun h => by rw [hi] at h; cases h.2)]
  have hdir : direct c lamps ss f = [] := by
    unfold direct
    simp [hd, hi]
  rw [hind, hdir, List.nil_append, List.nil_append]
  intro s hs
  split at hs
  · cases hs
  · unfold post at hs
    simp only [hd, hi, if_true, reduceCtorEq, if_false, List.append_nil, Bool.true_eq_false] at hs
    exact mem_minimums hs

/-! ### Findings -/

/-- **C217** (finding): the modes that show bounced light save no light at all: nothing is done to any face. -/
theorem bounce_debug_dark (c : Conf) (lamps : List Lamp) (ss : List ℚ) (f : Face) (steps : List Step)
    (h : lightFace c lamps ss f = .ok steps) (hd : c.debug = .bounce ∨ c.debug = .bouncelights) : steps = [] := by
  unfold lightFace at h
  by_cases hl : f.lightmapped = false
  · rw [if_pos hl] at h; exact (Outcome.ok.inj h).symm
  · rw [if_neg hl] at h
    by_cases hs : hasSurface f = false
    · rw [if_pos hs] at h; cases h
    · rw [if_neg hs] at h
      rw [← Outcome.ok.inj h]
      have hind : (List.range (passes c)).flatMap (indirect c f) = [] := by
        rw [List.flatMap_eq_nil_iff]
        intro d _
        unfold indirect
        rw [if_neg]
        rintro ⟨hn, -⟩
        rcases hd with hd | hd <;> rw [hd] at hn <;> cases hn
      rw [hind]
      rcases hd with hd | hd <;> simp [direct, post, hd]

/-- A room and a face in it. -/
def wall : Face := ⟨true, 4, true, false, true, false, true, 0, none⟩

/-- Bounced light on a sample that has only local minimum light, and negative light. -/
def dim : Effect := ⟨fun _ => -50, fun _ => 0, 0, 100, fun _ => 30, 0⟩

/-- **C217** (finding): unlike other minimum light, local minimum light is not the least a sample can have before negative lights: bounced
light is added on top of it, here 100 and 30, where minimum light of 100 would leave 100. -/
theorem local_min_bounces :
    result dim [.localMin, .bounced 0] = 130 ∧ lightFace ⟨.none, false, 1, 1, 0⟩ [⟨true, false, 100⟩] [] wall = .ok [.surface, .localMin, .bounced 0]
      ∧ lightFace ⟨.none, false, 1, 1, 100⟩ [] [] wall = .ok [.surface, .localMin, .bounced 0, .min 0 100]
      ∧ result ⟨fun _ => 0, fun _ => 0, 0, 0, fun _ => 30, 0⟩ [.surface, .localMin, .bounced 0, .min 0 100] = 100 := by decide +kernel

/-- **C217** (finding): with lighting turned off positive lights are still cast, only minimum and negative light is not. -/
theorem nolighting_lights :
    lightFace ⟨.none, true, 1, 1, 20⟩ [⟨false, false, 100⟩, ⟨false, false, -100⟩] [50, -50] wall = .ok [.entity 0, .sun 0, .surface, .localMin] := by
  decide +kernel

/-! ### The hypotheses are met -/

def lampsEx : List Lamp := [⟨false, false, 300⟩, ⟨false, false, -100⟩, ⟨true, false, 40⟩, ⟨false, true, 200⟩, ⟨false, false, 0⟩]

example : lightFace ⟨.none, false, 2, 3, 10⟩ lampsEx [100, -20] ⟨true, 4, true, true, true, false, false, 30, some (5, 100, 1 / 2)⟩
    = .ok [.entity 0, .sun 0, .surface, .localMin, .bounced 0, .bounced 1, .min 0 30, .min 5 50, .autoMin, .entity 1, .sun 1] := by decide +kernel
example : lightFace ⟨.none, false, 2, 3, 10⟩ lampsEx [100, -20] ⟨true, 4, true, true, true, true, true, 5, none⟩ = .ok [.min 0 10] := by decide +kernel
example : result ⟨fun i => if i = 0 then 60 else -15, fun _ => 0, 5, 0, fun _ => 7, 0⟩ [.entity 0, .surface, .localMin, .bounced 0, .min 0 80, .entity 1] = 65 := by
  decide +kernel
example : Cast lampsEx (fun x => x > 0) 0 := ⟨⟨false, false, 300⟩, rfl, rfl, rfl, by decide +kernel⟩
example : lightFaces ⟨.none, false, 0, 0, 0⟩ lampsEx [] [wall, { wall with axesOk := false }] = .error :=
  bad_face_ends _ _ _ { wall with axesOk := false } rfl (Or.inr (Or.inr rfl)) _ (by simp)

end Verif.Passes
