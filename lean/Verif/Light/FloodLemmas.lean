import Verif.Light.ImageLemmas

/-!
Lemmas about `FloodFillTransparent`.
-/

namespace Verif.Light

/-- Sample `i` of the image is visible. -/
def Opaque (img : List Px) (i : Nat) : Prop := ∃ p, img[i]? = some p ∧ p.a = true

theorem around_in {w h : Nat} {p : Nat × Nat} {i : Nat} (hi : i ∈ around w h p) : i < w * h := by
  unfold around at hi
  simp only [List.mem_flatMap, List.mem_filterMap] at hi
  obtain ⟨y0, _, x0, _, hc⟩ := hi
  exact cell_lt hc

theorem mem_around {w h a b x y : Nat} (ha : a < w) (hb : b < h)
    (h1 : a ≤ x + 1) (h2 : x ≤ a + 1) (h3 : b ≤ y + 1) (h4 : y ≤ b + 1) :
    b * w + a ∈ around w h (x, y) := by
  unfold around
  simp only [List.mem_flatMap, List.mem_filterMap]
  refine ⟨(b : Int) - y, by simp; omega, (a : Int) - x, by simp; omega, ?_⟩
  have := cell_some ha hb
  have e1 : (x : Int) + ((a : Int) - x) = a := by omega
  have e2 : (y : Int) + ((b : Int) - y) = b := by omega
  simp only [e1, e2]
  exact this

theorem fillOne_spec {w h : Nat} {img : List Px} (hl : img.length = w * h) {p : Nat × Nat}
    (hp : p ∈ coords w h) (u : Nat) :
    (Opaque img (p.2 * w + p.1) ∧ fillOne w h (img, u) p = .ok (img, u)) ∨
    (¬Opaque img (p.2 * w + p.1) ∧ (∃ j ∈ around w h p, Opaque img j) ∧
      ∃ c, fillOne w h (img, u) p = .ok (img.set (p.2 * w + p.1) ⟨c, true⟩, u) ∧
        ∀ ch lo hi, VisBetween ch lo hi img → lo ≤ c ch ∧ c ch ≤ hi) ∨
    (¬Opaque img (p.2 * w + p.1) ∧ (∀ j ∈ around w h p, ¬Opaque img j) ∧
      fillOne w h (img, u) p = .ok (img, u + 1)) := by
  obtain ⟨hx, hy⟩ := mem_coords.1 hp
  have hi : p.2 * w + p.1 < img.length := by rw [hl]; exact index_lt hx hy
  obtain ⟨ns, hns⟩ := pixels_ok (img := img) (l := around w h p)
    (fun i hi => by rw [hl]; exact around_in hi)
  have hpx := pixel_ok hi
  unfold fillOne
  simp only [hpx, hns, Outcome.ok_bind, Outcome.pure_eq]
  by_cases ha : (img[p.2 * w + p.1]).a = true
  · left
    exact ⟨⟨_, List.getElem?_eq_getElem hi, ha⟩, by rw [if_pos ha]⟩
  · right
    have hno : ¬Opaque img (p.2 * w + p.1) := by
      rintro ⟨q, hq, hqa⟩
      rw [List.getElem?_eq_getElem hi, Option.some.injEq] at hq
      rw [hq] at ha
      exact ha hqa
    by_cases hop : ns.filter Px.a = []
    · right
      refine ⟨hno, ?_, by rw [if_neg ha, if_neg (not_not.2 hop)]⟩
      rintro j hj ⟨q, hq, hqa⟩
      have hf := each_spec hns
      obtain ⟨k, hk, rfl⟩ := List.getElem_of_mem hj
      have hk' : k < ns.length := by rw [← hf.length_eq]; exact hk
      have hr := (List.forall₂_iff_get.1 hf).2 k hk hk'
      have hr := pixel_some hr
      simp only [List.get_eq_getElem] at hr
      rw [hq, Option.some.injEq] at hr
      have : q ∈ ns.filter Px.a := List.mem_filter.2 ⟨hr ▸ List.getElem_mem hk', hqa⟩
      rw [hop] at this
      simp at this
    · left
      refine ⟨hno, ?_, mean (ns.filter Px.a), by rw [if_neg ha, if_pos hop], ?_⟩
      · obtain ⟨q, hq⟩ := List.exists_mem_of_ne_nil _ hop
        obtain ⟨hq, hqa⟩ := List.mem_filter.1 hq
        obtain ⟨j, hj, hjq⟩ := each_mem hns hq
        exact ⟨j, hj, q, pixel_some hjq, hqa⟩
      · intro ch lo hi hb
        refine mean_between hop ?_
        intro q hq
        obtain ⟨hq, hqa⟩ := List.mem_filter.1 hq
        exact hb q (mem_of_each_pixel hns q hq) hqa

/-- Visible samples of the first image are the same in the second. -/
def Keeps (img img' : List Px) : Prop :=
  ∀ (i : Nat) (p : Px), img[i]? = some p → p.a = true → img'[i]? = some p

theorem Keeps.opaque {img img' : List Px} (h : Keeps img img') {i : Nat} (hi : Opaque img i) :
    Opaque img' i := by
  obtain ⟨p, hp, ha⟩ := hi
  exact ⟨p, h i p hp ha, ha⟩

theorem set_keeps {img : List Px} {i : Nat} {q : Px} (h : ¬Opaque img i) :
    Keeps img (img.set i q) := by
  intro j p hp ha
  have : i ≠ j := by
    rintro rfl
    exact h ⟨p, hp, ha⟩
  rw [List.getElem?_set_ne this]
  exact hp

theorem set_between {img : List Px} {i : Nat} {c : Col} {ch : Fin 3} {lo hi : ℚ}
    (hb : VisBetween ch lo hi img) (hc : lo ≤ c ch ∧ c ch ≤ hi) :
    VisBetween ch lo hi (img.set i ⟨c, true⟩) := by
  intro p hp ha
  rcases List.mem_or_eq_of_mem_set hp with hp | rfl
  · exact hb p hp ha
  · exact hc

structure RoundOk (w h : Nat) (img : List Px) (u : Nat) (cs : List (Nat × Nat)) (img' : List Px)
    (u' : Nat) : Prop where
  len : img'.length = img.length
  keeps : Keeps img img'
  lower : u ≤ u'
  upper : u' ≤ u + cs.length
  all : u' = u → ∀ p ∈ cs, Opaque img' (p.2 * w + p.1)
  none : u' = u + cs.length → ∀ p ∈ cs, ¬Opaque img (p.2 * w + p.1)
  progress : ∀ p ∈ cs, (∃ j ∈ around w h p, Opaque img j) → Opaque img' (p.2 * w + p.1)
  between : ∀ ch lo hi, VisBetween ch lo hi img → VisBetween ch lo hi img'

theorem fillRound_spec {w h : Nat} : ∀ (cs : List (Nat × Nat)) (img : List Px) (u : Nat),
    img.length = w * h → (∀ p ∈ cs, p ∈ coords w h) →
    ∃ img' u', fillRound w h (img, u) cs = .ok (img', u') ∧ RoundOk w h img u cs img' u' := by
  intro cs
  induction cs with
  | nil =>
    intro img u hl _
    exact ⟨img, u, rfl, rfl, fun _ _ h _ => h, le_refl _, by simp, by simp, by simp,
      by simp, fun _ _ _ h => h⟩
  | cons p cs ih =>
    intro img u hl hcs
    have hp := hcs p (by simp)
    have hin : p.2 * w + p.1 < w * h := by
      obtain ⟨hx, hy⟩ := mem_coords.1 hp
      exact index_lt hx hy
    unfold fillRound
    rcases fillOne_spec hl hp u with ⟨h1, h2⟩ | ⟨h1, h2, c, h3, h4⟩ | ⟨h1, h2, h3⟩
    · obtain ⟨img', u', hr, ok⟩ := ih img u hl (fun q hq => hcs q (by simp [hq]))
      refine ⟨img', u', by rw [h2]; exact hr, ok.len, ok.keeps, ok.lower, ?_, ?_, ?_, ?_,
        ok.between⟩
      · have := ok.upper; simp only [List.length_cons]; omega
      · intro hu q hq
        rcases List.mem_cons.1 hq with rfl | hq
        · exact ok.keeps.opaque h1
        · exact ok.all hu q hq
      · intro hu; have := ok.upper; simp only [List.length_cons] at hu; omega
      · intro q hq hj
        rcases List.mem_cons.1 hq with rfl | hq
        · exact ok.keeps.opaque h1
        · exact ok.progress q hq hj
    · obtain ⟨img', u', hr, ok⟩ := ih (img.set (p.2 * w + p.1) ⟨c, true⟩) u (by simpa using hl)
        (fun q hq => hcs q (by simp [hq]))
      have hk := set_keeps (q := ⟨c, true⟩) h1
      have hop : Opaque img' (p.2 * w + p.1) := by
        apply ok.keeps.opaque
        exact ⟨⟨c, true⟩, by rw [List.getElem?_set_self (by omega)], rfl⟩
      refine ⟨img', u', by rw [h3]; exact hr, by rw [ok.len, List.length_set], ?_, ok.lower, ?_, ?_,
        ?_, ?_, ?_⟩
      · intro i q hq ha
        exact ok.keeps i q (hk i q hq ha) ha
      · have := ok.upper; simp only [List.length_cons]; omega
      · intro hu q hq
        rcases List.mem_cons.1 hq with rfl | hq
        · exact hop
        · exact ok.all hu q hq
      · intro hu; have := ok.upper; simp only [List.length_cons] at hu; omega
      · intro q hq hj
        rcases List.mem_cons.1 hq with rfl | hq
        · exact hop
        · obtain ⟨j, hj, hjo⟩ := hj
          exact ok.progress q hq ⟨j, hj, hk.opaque hjo⟩
      · intro ch lo hi hb
        exact ok.between ch lo hi (set_between hb (h4 ch lo hi hb))
    · obtain ⟨img', u', hr, ok⟩ := ih img (u + 1) hl (fun q hq => hcs q (by simp [hq]))
      refine ⟨img', u', by rw [h3]; exact hr, ok.len, ok.keeps, ?_, ?_, ?_, ?_, ?_,
        ok.between⟩
      · have := ok.lower; omega
      · have := ok.upper; simp only [List.length_cons]; omega
      · intro hu; have := ok.lower; omega
      · intro hu q hq
        simp only [List.length_cons] at hu
        rcases List.mem_cons.1 hq with rfl | hq
        · exact h1
        · exact ok.none (by omega) q hq
      · intro q hq hj
        rcases List.mem_cons.1 hq with rfl | hq
        · obtain ⟨j, hj, hjo⟩ := hj
          exact absurd hjo (h2 j hj)
        · exact ok.progress q hq hj

/-- The index of a sample from its coordinates and back. -/
theorem exists_coords {w h i : Nat} (hi : i < w * h) :
    ∃ x y, x < w ∧ y < h ∧ i = y * w + x := by
  have hw : 0 < w := by
    rcases Nat.eq_zero_or_pos w with rfl | h0
    · simp at hi
    · exact h0
  refine ⟨i % w, i / w, Nat.mod_lt _ hw, Nat.div_lt_of_lt_mul hi, ?_⟩
  rw [Nat.mul_comm, Nat.div_add_mod]

/-- Between a place where something holds and one where it does not there is a border. -/
theorem border {P : Nat → Prop} : ∀ {d a b : Nat}, b = a + d ∨ a = b + d → P a → ¬P b →
    ∃ j k, P j ∧ ¬P k ∧ (j ≤ k + 1 ∧ k ≤ j + 1) ∧ (j ≤ max a b) ∧ k ≤ max a b := by
  intro d
  induction d with
  | zero =>
    intro a b h ha hb
    have : a = b := by omega
    subst this
    exact absurd ha hb
  | succ d ih =>
    intro a b h ha hb
    rcases h with h | h
    · by_cases hn : P (a + 1)
      · obtain ⟨j, k, h1, h2, h3, h4, h5⟩ := ih (a := a + 1) (b := b) (by omega) hn hb
        exact ⟨j, k, h1, h2, h3, by omega, by omega⟩
      · exact ⟨a, a + 1, ha, hn, by omega, by omega, by omega⟩
    · by_cases hn : P (b + 1)
      · exact ⟨b + 1, b, hn, hb, by omega, by omega, by omega⟩
      · obtain ⟨j, k, h1, h2, h3, h4, h5⟩ := ih (a := a) (b := b + 1) (by omega) ha hn
        exact ⟨j, k, h1, h2, h3, by omega, by omega⟩

/-- In an image that is neither all visible nor all hidden, a hidden sample is beside a visible
one. -/
theorem frontier {w h : Nat} {P : Nat → Prop} {i j : Nat} (hi : i < w * h) (hj : j < w * h)
    (hpi : P i) (hpj : ¬P j) :
    ∃ p ∈ coords w h, ¬P (p.2 * w + p.1) ∧ ∃ k ∈ around w h p, P k := by
  obtain ⟨a, b, ha, hb, rfl⟩ := exists_coords hi
  obtain ⟨x, y, hx, hy, rfl⟩ := exists_coords hj
  have dist : ∀ m n : Nat, ∃ d, n = m + d ∨ m = n + d := by
    intro m n
    rcases Nat.le_total m n with hle | hle
    · exact ⟨n - m, by omega⟩
    · exact ⟨m - n, by omega⟩
  by_cases hrow : P (b * w + x)
  · -- the column of the hidden sample
    obtain ⟨d, hd⟩ := dist b y
    obtain ⟨m, n, h1, h2, h3, h4, h5⟩ := border (P := fun t => P (t * w + x)) hd hrow hpj
    have hm : m < h := by omega
    have hn : n < h := by omega
    exact ⟨(x, n), mem_coords.2 ⟨hx, hn⟩, h2, m * w + x,
      mem_around hx hm (by omega) (by omega) (by omega) (by omega), h1⟩
  · -- the row of the visible sample
    obtain ⟨d, hd⟩ := dist a x
    obtain ⟨m, n, h1, h2, h3, h4, h5⟩ := border (P := fun t => P (b * w + t)) hd hpi hrow
    have hm : m < w := by omega
    have hn : n < w := by omega
    exact ⟨(n, b), mem_coords.2 ⟨hn, hb⟩, h2, b * w + m,
      mem_around hm hb (by omega) (by omega) (by omega) (by omega), h1⟩

/-- The number of hidden samples. -/
def hidden (img : List Px) : Nat := img.countP (fun p => !p.a)

theorem hidden_le : ∀ {img img' : List Px}, img'.length = img.length → Keeps img img' →
    hidden img' ≤ hidden img := by
  intro img
  induction img with
  | nil => intro img' hl _; simp at hl; subst hl; exact le_refl _
  | cons p img ih =>
    intro img' hl hk
    cases img' with
    | nil => simp at hl
    | cons p' img' =>
      have h1 := ih (img' := img') (by simpa using hl) (fun i q hq ha => by
        have := hk (i + 1) q (by simpa using hq) ha
        simpa using this)
      have h0 := hk 0 p (by simp)
      unfold hidden at *
      rw [List.countP_cons, List.countP_cons]
      cases hp : p.a
      · simp; split <;> omega
      · have := h0 hp
        simp only [List.getElem?_cons_zero, Option.some.injEq] at this
        subst this
        simp [hp]; omega

theorem hidden_lt : ∀ {img img' : List Px}, img'.length = img.length → Keeps img img' →
    ∀ {i : Nat}, i < img.length → ¬Opaque img i → Opaque img' i → hidden img' < hidden img := by
  intro img
  induction img with
  | nil => intro img' _ _ i hi; simp at hi
  | cons p img ih =>
    intro img' hl hk i hi hn ho
    cases img' with
    | nil => simp at hl
    | cons p' img' =>
      have hk' : Keeps img img' := fun i q hq ha => by
        have := hk (i + 1) q (by simpa using hq) ha
        simpa using this
      have hl' : img'.length = img.length := by simpa using hl
      have h0 := hk 0 p (by simp)
      cases i with
      | zero =>
        have hle := hidden_le hl' hk'
        have hp : p.a = false := by
          cases hp : p.a
          · rfl
          · exact absurd ⟨p, by simp, hp⟩ hn
        have hp' : p'.a = true := by
          obtain ⟨q, hq, ha⟩ := ho
          simp only [List.getElem?_cons_zero, Option.some.injEq] at hq
          subst hq; exact ha
        unfold hidden at *
        rw [List.countP_cons, List.countP_cons]
        simp [hp, hp']; omega
      | succ i =>
        have hlt := ih hl' hk' (i := i) (by simpa using hi) (fun ⟨q, hq, ha⟩ => hn ⟨q, by simpa using hq, ha⟩)
          (by obtain ⟨q, hq, ha⟩ := ho; exact ⟨q, by simpa using hq, ha⟩)
        unfold hidden at *
        rw [List.countP_cons, List.countP_cons]
        cases hp : p.a
        · simp; split <;> omega
        · have := h0 hp
          simp only [List.getElem?_cons_zero, Option.some.injEq] at this
          subst this
          simp [hp]; omega

theorem fillRound_hidden {w h : Nat} : ∀ (cs : List (Nat × Nat)) (img : List Px) (u : Nat),
    img.length = w * h → (∀ p ∈ cs, p ∈ coords w h) → (∀ i, ¬Opaque img i) →
    fillRound w h (img, u) cs = .ok (img, u + cs.length) := by
  intro cs
  induction cs with
  | nil => intro img u _ _ _; rfl
  | cons p cs ih =>
    intro img u hl hcs hno
    unfold fillRound
    rcases fillOne_spec hl (hcs p (by simp)) u with ⟨h1, _⟩ | ⟨_, ⟨j, _, h2⟩, _⟩ | ⟨_, _, h3⟩
    · exact absurd h1 (hno _)
    · exact absurd h2 (hno _)
    · rw [h3]
      simp only [Outcome.ok_bind]
      rw [ih img (u + 1) hl (fun q hq => hcs q (by simp [hq])) hno]
      simp only [List.length_cons]
      rw [Nat.add_assoc, Nat.add_comm 1]

end Verif.Light
