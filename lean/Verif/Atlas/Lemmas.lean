import Mathlib.Tactic.Ring
import Mathlib.Tactic.Linarith
import Verif.Atlas.Spec

/-! Lemmas about packing and writing lightmaps. -/

namespace Verif.Atlas

open Verif

theorem newRow_new (w : Nat) : newRow {} w = {} := by
  unfold newRow
  by_cases c : ({} : Tile).x + w ≥ atlasSize
  · rw [if_pos c]; rfl
  · rw [if_neg c]

theorem place_zero (i : Nat) (t : Tile) (r : Rect) : place 0 i t r = none := rfl

theorem place_succ (n i : Nat) (t : Tile) (r : Rect) : place (n + 1) i t r =
    if (newRow t r.w).y + r.h ≥ atlasSize then place n (i + 1) {} r
    else some (⟨r, i, (newRow t r.w).x, (newRow t r.w).y⟩, i,
      { x := (newRow t r.w).x + r.w, y := (newRow t r.w).y, tallest := max (newRow t r.w).tallest r.h }) := rfl

/-- A new tile takes every face that is not too high. -/
theorem place_new {n : Nat} (i : Nat) {r : Rect} (h : r.h < 512) :
    place (n + 1) i {} r = some (⟨r, i, 0, 0⟩, i, { x := r.w, y := 0, tallest := r.h }) := by
  rw [place_succ, newRow_new, if_neg (by simp only [atlasSize]; omega)]
  simp

theorem place_two {n : Nat} (i : Nat) (t : Tile) {r : Rect} (h : r.h < 512) :
    place (n + 2) i t r = place 2 i t r ∧ ∃ x, place 2 i t r = some x := by
  rw [place_succ, place_succ 1]
  by_cases c : (newRow t r.w).y + r.h ≥ atlasSize
  · rw [if_pos c, if_pos c, place_new _ h, place_new _ h]
    exact ⟨rfl, _, rfl⟩
  · rw [if_neg c, if_neg c]
    exact ⟨rfl, _, rfl⟩

theorem place_tall {r : Rect} (h : 512 ≤ r.h) : ∀ n i t, place n i t r = none
  | 0, _, _ => rfl
  | n + 1, i, t => by
    rw [place_succ, if_pos (by simp only [atlasSize]; omega)]
    exact place_tall h n _ _

/-- Where a face may be, when the tile `t` with the number `i` is the current one. -/
def After (i : Nat) (t : Tile) (q : Placed) : Prop :=
  i < q.tile ∨ (q.tile = i ∧ (t.y + t.tallest ≤ q.y ∨ (q.y = t.y ∧ t.x ≤ q.x)))

/-- The two lightmaps are in different tiles or do not overlap. -/
def TileApart (p q : Placed) : Prop := p.tile ≠ q.tile ∨ Spec.Apart p q

/-- What placing a face does. -/
theorem place_ok : ∀ {n i : Nat} {t : Tile} {r : Rect} {p : Placed} {i' : Nat} {t' : Tile},
    place n i t r = some (p, i', t') →
    p.rect = r ∧ p.y + r.h < 512 ∧ (r.w < 512 → p.x + r.w < 512) ∧ i ≤ i' ∧ p.tile = i' ∧ After i t p ∧
      (∀ q, After i' t' q → After i t q) ∧ ∀ q, After i' t' q → TileApart p q
  | 0, _, _, _, _, _, _, h => by cases h
  | n + 1, i, t, r, p, i', t', h => by
    rw [place_succ] at h
    by_cases c : (newRow t r.w).y + r.h ≥ atlasSize
    · rw [if_pos c] at h
      obtain ⟨h1, h2, h3, h4, h5, h6, h7, h8⟩ := place_ok h
      refine ⟨h1, h2, h3, by omega, h5, ?_, ?_, h8⟩
      · left; omega
      · intro q hq
        rcases h7 q hq with a | ⟨a, _⟩
        · left; omega
        · left; omega
    · rw [if_neg c] at h
      simp only [Option.some.injEq, Prod.mk.injEq] at h
      obtain ⟨hp, hi, ht⟩ := h
      have hsz : atlasSize = 512 := rfl
      have hrow : (newRow t r.w).x + r.w < 512 ∨ 512 ≤ r.w := by
        unfold newRow
        by_cases d : t.x + r.w ≥ atlasSize
        · rw [if_pos d]
          by_cases e : r.w < 512
          · left; simp only; omega
          · right; omega
        · rw [if_neg d]; left; omega
      have hnew : newRow t r.w = t ∨ newRow t r.w = { x := 0, y := t.y + t.tallest, tallest := 0 } := by
        unfold newRow
        by_cases d : t.x + r.w ≥ atlasSize
        · rw [if_pos d]; right; rfl
        · rw [if_neg d]; left; rfl
      rw [← hp, ← hi, ← ht]
      refine ⟨rfl, ?_, ?_, Nat.le_refl _, rfl, ?_, ?_, ?_⟩
      · simp only; omega
      · intro hw; simp only; omega
      · right
        refine ⟨rfl, ?_⟩
        rcases hnew with e | e
        · rw [e]; right; exact ⟨rfl, Nat.le_refl _⟩
        · rw [e]; left; exact Nat.le_refl _
      · intro q hq
        rcases hq with a | ⟨a, b⟩
        · left; exact a
        · right
          refine ⟨a, ?_⟩
          rcases hnew with e | e
          · rw [e] at b
            simp only at b
            omega
          · rw [e] at b
            simp only at b
            omega
      · intro q hq
        rcases hq with a | ⟨a, b⟩
        · left; simp only; omega
        · right
          unfold Spec.Apart
          simp only at b ⊢
          omega

theorem packFrom_ok {fuel : Nat} : ∀ {rs : List Rect} {i : Nat} {t : Tile} {ps : List Placed} {n : Nat},
    packFrom fuel i t rs = some (ps, n) →
    ps.map (·.rect) = rs ∧ (∀ p ∈ ps, p.y + p.rect.h < 512 ∧ (p.rect.w < 512 → p.x + p.rect.w < 512) ∧ After i t p) ∧
      ps.Pairwise TileApart
  | [], i, t, ps, n, h => by
    simp only [packFrom, Option.some.injEq, Prod.mk.injEq] at h
    rw [← h.1]
    exact ⟨rfl, fun p hp => absurd hp List.not_mem_nil, List.Pairwise.nil⟩
  | r :: rs, i, t, ps, n, h => by
    unfold packFrom at h
    cases hp : place fuel i t r with
    | none => rw [hp] at h; cases h
    | some x =>
      obtain ⟨p, i', t'⟩ := x
      rw [hp] at h
      simp only at h
      cases hq : packFrom fuel i' t' rs with
      | none => rw [hq] at h; cases h
      | some y =>
        obtain ⟨qs, m⟩ := y
        rw [hq] at h
        simp only [Option.some.injEq, Prod.mk.injEq] at h
        obtain ⟨h1, h2, h3, h4, h5, h6, h7, h8⟩ := place_ok hp
        obtain ⟨g1, g2, g3⟩ := packFrom_ok hq
        rw [← h.1]
        refine ⟨?_, ?_, ?_⟩
        · rw [List.map_cons, h1, g1]
        · intro q hq
          rcases List.mem_cons.1 hq with e | hq
          · rw [e, h1]; exact ⟨h2, h3, h6⟩
          · obtain ⟨a, b, c⟩ := g2 q hq
            exact ⟨a, b, h7 q c⟩
        · exact List.Pairwise.cons (fun q hq => h8 q (g2 q hq).2.2) g3

theorem packFrom_ends {n : Nat} : ∀ (rs : List Rect) (i : Nat) (t : Tile), (∀ r ∈ rs, r.h < 512) →
    packFrom (n + 2) i t rs = packFrom 2 i t rs ∧ ∃ x, packFrom 2 i t rs = some x
  | [], i, t, _ => ⟨rfl, _, rfl⟩
  | r :: rs, i, t, h => by
    obtain ⟨h1, x, h2⟩ := place_two (n := n) i t (h r List.mem_cons_self)
    obtain ⟨p, i', t'⟩ := x
    obtain ⟨g1, y, g2⟩ := packFrom_ends (n := n) rs i' t' (fun q hq => h q (List.mem_cons_of_mem _ hq))
    obtain ⟨qs, m⟩ := y
    unfold packFrom
    rw [h1, h2]
    simp only [g1, g2]
    exact ⟨trivial, _, rfl⟩

theorem packFrom_tall {fuel : Nat} : ∀ (rs : List Rect) (i : Nat) (t : Tile), (∃ r ∈ rs, 512 ≤ r.h) →
    packFrom fuel i t rs = none
  | [], _, _, h => by
    obtain ⟨r, hr, _⟩ := h
    exact absurd hr List.not_mem_nil
  | r :: rs, i, t, h => by
    unfold packFrom
    by_cases c : 512 ≤ r.h
    · rw [place_tall c]
    · cases place fuel i t r with
      | none => rfl
      | some x =>
        obtain ⟨p, i', t'⟩ := x
        simp only
        have : ∃ r ∈ rs, 512 ≤ r.h := by
          obtain ⟨q, hq, hh⟩ := h
          rcases List.mem_cons.1 hq with e | hq
          · rw [e] at hh; exact absurd hh c
          · exact ⟨q, hq, hh⟩
        rw [packFrom_tall rs i' t' this]

theorem sorted_perm (l : List Rect) : (sorted l).Perm l := List.perm_insertionSort _ l

theorem ceilSqrt_pos (n : Nat) : 0 < ceilSqrt (n + 1) := by
  unfold ceilSqrt
  cases h : (List.range (n + 1)).find? fun k => n + 1 ≤ k * k with
  | none => simp
  | some k =>
    have := List.find?_some h
    simp only [decide_eq_true_eq] at this
    rcases Nat.eq_zero_or_pos k with e | e
    · rw [e] at this; omega
    · exact e

/-- Lightmaps within their tiles stay apart when the tiles are put beside each other. -/
theorem spread_apart {k : Nat} {p q : Placed} (h : TileApart p q) (px : p.x + p.rect.w < 512)
    (py : p.y + p.rect.h < 512) (qx : q.x + q.rect.w < 512) (qy : q.y + q.rect.h < 512) :
    Spec.Apart (spread k p) (spread k q) := by
  unfold Spec.Apart spread atlasSize
  simp only
  by_cases e : p.tile = q.tile
  · rw [e]
    rcases h with h | h
    · exact absurd e h
    · unfold Spec.Apart at h
      omega
  · have hd : p.tile % k ≠ q.tile % k ∨ p.tile / k ≠ q.tile / k := by
      by_contra c
      push Not at c
      apply e
      rw [← Nat.div_add_mod p.tile k, ← Nat.div_add_mod q.tile k, c.1, c.2]
    rcases hd with d | d
    · generalize p.tile % k = a at *
      generalize q.tile % k = b at *
      rcases Nat.lt_or_gt_of_ne d with d | d
      · left
        have : (a + 1) * 512 ≤ b * 512 := Nat.mul_le_mul_right 512 d
        omega
      · right; left
        have : (b + 1) * 512 ≤ a * 512 := Nat.mul_le_mul_right 512 d
        omega
    · generalize p.tile / k = a at *
      generalize q.tile / k = b at *
      rcases Nat.lt_or_gt_of_ne d with d | d
      · right; right; left
        have : (a + 1) * 512 ≤ b * 512 := Nat.mul_le_mul_right 512 d
        omega
      · right; right; right
        have : (b + 1) * 512 ≤ a * 512 := Nat.mul_le_mul_right 512 d
        omega

theorem pack_ok {fuel : Nat} {l : List Rect} {ps : List Placed} (h : pack fuel l = some ps) :
    (ps.map (·.rect)).Perm l ∧ ((∀ r ∈ l, r.w < 512) → ps.Pairwise Spec.Apart) := by
  unfold pack at h
  cases hp : packFrom fuel 0 {} (sorted l) with
  | none => rw [hp] at h; cases h
  | some x =>
    obtain ⟨qs, n⟩ := x
    rw [hp] at h
    simp only [Option.some.injEq] at h
    obtain ⟨h1, h2, h3⟩ := packFrom_ok hp
    rw [← h]
    refine ⟨?_, ?_⟩
    · rw [List.map_map]
      have : ((fun p : Placed => p.rect) ∘ spread (ceilSqrt (n + 1))) = fun p => p.rect := rfl
      rw [this, h1]
      exact sorted_perm l
    · intro hw
      rw [List.pairwise_map]
      have hm : ∀ p ∈ qs, p.rect.w < 512 := by
        intro p hp
        apply hw
        rw [← (sorted_perm l).mem_iff, ← h1]
        exact List.mem_map.2 ⟨p, hp, rfl⟩
      refine List.Pairwise.imp_of_mem ?_ h3
      intro p q hp hq ha
      obtain ⟨p1, p2, _⟩ := h2 p hp
      obtain ⟨q1, q2, _⟩ := h2 q hq
      exact spread_apart ha (p2 (hm p hp)) p1 (q2 (hm q hq)) q1

/-! The size of the images. -/

theorem fold_max (f : Placed → Nat) : ∀ (ps : List Placed) (m : Nat),
    m ≤ ps.foldl (fun m p => max m (f p)) m ∧ ∀ p ∈ ps, f p ≤ ps.foldl (fun m p => max m (f p)) m
  | [], m => ⟨Nat.le_refl _, fun p hp => absurd hp List.not_mem_nil⟩
  | p :: ps, m => by
    obtain ⟨h1, h2⟩ := fold_max f ps (max m (f p))
    simp only [List.foldl_cons]
    refine ⟨by omega, ?_⟩
    intro q hq
    rcases List.mem_cons.1 hq with e | hq
    · rw [e]; omega
    · exact h2 q hq

theorem width_le {ps : List Placed} {p : Placed} (h : p ∈ ps) : p.x + p.rect.w ≤ width ps :=
  (fold_max (fun p => p.x + p.rect.w) ps 0).2 p h

theorem height_le {ps : List Placed} {p : Placed} (h : p ∈ ps) : p.y + p.rect.h ≤ height ps :=
  (fold_max (fun p => p.y + p.rect.h) ps 0).2 p h

/-! Writing. -/

/-- The index of a pixel. -/
theorem index_inj {W x y x' y' : Nat} (h : x < W) (h' : x' < W) (e : y * W + x = y' * W + x') : x = x' ∧ y = y' := by
  have hx : x = x' := by
    have a : (y * W + x) % W = x := by rw [Nat.mul_comm, Nat.mul_add_mod]; exact Nat.mod_eq_of_lt h
    have b : (y' * W + x') % W = x' := by rw [Nat.mul_comm, Nat.mul_add_mod]; exact Nat.mod_eq_of_lt h'
    rw [← a, ← b, e]
  refine ⟨hx, ?_⟩
  rw [hx] at e
  have : y * W = y' * W := by omega
  exact Nat.eq_of_mul_eq_mul_right (by omega) this

theorem index_lt {W H x y : Nat} (hx : x < W) (hy : y < H) : y * W + x < W * H := by
  have : (y + 1) * W ≤ H * W := Nat.mul_le_mul_right W hy
  rw [Nat.mul_comm W H]
  have e : (y + 1) * W = y * W + W := by ring
  omega

theorem cell_lt {w h k : Nat} (hk : k < w * h) : k % w < w ∧ k / w < h := by
  have hw : 0 < w := by
    rcases Nat.eq_zero_or_pos w with e | e
    · rw [e, Nat.zero_mul] at hk; omega
    · exact e
  exact ⟨Nat.mod_lt _ hw, Nat.div_lt_of_lt_mul hk⟩

theorem writeAt_ok {l l' : List Pixel} {i : Nat} {v : Pixel} (h : Outcome.writeAt l i v = .ok l') :
    i < l.length ∧ l' = l.set i v := by
  unfold Outcome.writeAt at h
  by_cases c : i < l.length
  · rw [if_pos c] at h; injection h with h; exact ⟨c, h.symm⟩
  · rw [if_neg c] at h; cases h

/-- The index of a sample in the image. -/
def cell (W : Nat) (p : Placed) (k : Nat) : Nat := (p.y + k / p.rect.w) * W + (p.x + k % p.rect.w)

theorem cell_inj {W : Nat} {p : Placed} (hW : p.x + p.rect.w ≤ W) {k k' : Nat} (hk : k < p.rect.w * p.rect.h)
    (hk' : k' < p.rect.w * p.rect.h) (e : cell W p k = cell W p k') : k = k' := by
  obtain ⟨a, _⟩ := cell_lt hk
  obtain ⟨b, _⟩ := cell_lt hk'
  obtain ⟨e1, e2⟩ := index_inj (by omega) (by omega) e
  rw [← Nat.div_add_mod k p.rect.w, ← Nat.div_add_mod k' p.rect.w]
  have e3 : k / p.rect.w = k' / p.rect.w := by omega
  have e4 : k % p.rect.w = k' % p.rect.w := by omega
  rw [e3, e4]

/-- What writing the samples of a face does. -/
theorem writeSamples_ok {d : Data} {W : Nat} {p : Placed} {base : Int} (hW : p.x + p.rect.w ≤ W) :
    ∀ {ks : List Nat} {img img' : List Pixel}, ks.Nodup → (∀ k ∈ ks, k < p.rect.w * p.rect.h) →
    writeSamples d W p base ks img = .ok img' →
    img'.length = img.length ∧
      (∀ k ∈ ks, ∃ v, sample d (base + (k * d.step : Nat)) = .ok v ∧ img'[cell W p k]? = some v) ∧
      ∀ i, (∀ k ∈ ks, i ≠ cell W p k) → img'[i]? = img[i]?
  | [], img, img', _, _, h => by
    simp only [writeSamples, Outcome.ok.injEq] at h
    rw [← h]
    exact ⟨rfl, fun k hk => absurd hk List.not_mem_nil, fun _ _ => rfl⟩
  | k :: ks, img, img', hn, hk, h => by
    simp only [writeSamples, Outcome.bind_eq_ok] at h
    obtain ⟨v, hv, m, hm, h⟩ := h
    obtain ⟨hm1, hm2⟩ := writeAt_ok hm
    rw [List.nodup_cons] at hn
    obtain ⟨h1, h2, h3⟩ := writeSamples_ok hW hn.2 (fun k' hk' => hk k' (List.mem_cons_of_mem _ hk')) h
    refine ⟨?_, ?_, ?_⟩
    · rw [h1, hm2, List.length_set]
    · intro k' hk'
      rcases List.mem_cons.1 hk' with e | hk'
      · rw [e]
        refine ⟨v, hv, ?_⟩
        rw [h3 (cell W p k)]
        · rw [hm2]
          exact List.getElem?_set_self hm1
        · intro k2 hk2 e2
          have := cell_inj hW (hk k List.mem_cons_self) (hk k2 (List.mem_cons_of_mem _ hk2)) e2
          rw [this] at hn
          exact hn.1 hk2
      · exact h2 k' hk'
    · intro i hi
      rw [h3 i (fun k' hk' => hi k' (List.mem_cons_of_mem _ hk')), hm2]
      exact List.getElem?_set_ne (fun e => hi k List.mem_cons_self (by rw [← e]; rfl))

/-- Cells of lightmaps that are apart are different. -/
theorem cells_apart {W : Nat} {p q : Placed} (hp : p.x + p.rect.w ≤ W) (hq : q.x + q.rect.w ≤ W) (h : Spec.Apart p q)
    {k k' : Nat} (hk : k < p.rect.w * p.rect.h) (hk' : k' < q.rect.w * q.rect.h) : cell W p k ≠ cell W q k' := by
  intro e
  obtain ⟨a, b⟩ := cell_lt hk
  obtain ⟨a', b'⟩ := cell_lt hk'
  unfold cell at e
  obtain ⟨e1, e2⟩ := index_inj (show p.x + k % p.rect.w < W by omega) (show q.x + k' % q.rect.w < W by omega) e
  unfold Spec.Apart at h
  generalize k % p.rect.w = a1 at *
  generalize k / p.rect.w = a2 at *
  generalize k' % q.rect.w = b1 at *
  generalize k' / q.rect.w = b2 at *
  rcases h with h | h | h | h <;> omega

/-- What writing the faces of a style does. -/
theorem writeFaces_ok {d : Data} {W style : Nat} : ∀ {ps : List Placed} {s s' : List Pixel × Bool},
    (∀ p ∈ ps, p.x + p.rect.w ≤ W) → ps.Pairwise Spec.Apart → writeFaces d W style ps s = .ok s' →
    s'.1.length = s.1.length ∧ (s'.2 = true ↔ s.2 = true ∨ ∃ p ∈ ps, slot p.rect style ≠ none) ∧
      (∀ p ∈ ps, ∀ j, slot p.rect style = some j → ∀ k < p.rect.w * p.rect.h,
        ∃ v, sample d (start d p.rect j + (k * d.step : Nat)) = .ok v ∧ s'.1[cell W p k]? = some v) ∧
      ∀ i, (∀ p ∈ ps, slot p.rect style ≠ none → ∀ k < p.rect.w * p.rect.h, i ≠ cell W p k) → s'.1[i]? = s.1[i]?
  | [], s, s', _, _, h => by
    simp only [writeFaces, Outcome.ok.injEq] at h
    rw [← h]
    refine ⟨rfl, ?_, fun p hp => absurd hp List.not_mem_nil, fun _ _ => rfl⟩
    constructor
    · exact Or.inl
    · rintro (h | ⟨p, hp, _⟩)
      · exact h
      · exact absurd hp List.not_mem_nil
  | p :: ps, s, s', hW, ha, h => by
    have hW' : ∀ q ∈ ps, q.x + q.rect.w ≤ W := fun q hq => hW q (List.mem_cons_of_mem _ hq)
    rw [List.pairwise_cons] at ha
    unfold writeFaces at h
    cases hs : slot p.rect style with
    | none =>
      rw [hs] at h
      obtain ⟨h1, h2, h3, h4⟩ := writeFaces_ok hW' ha.2 h
      refine ⟨h1, ?_, ?_, ?_⟩
      · rw [h2]
        constructor
        · rintro (c | ⟨q, hq, c⟩)
          · exact .inl c
          · exact .inr ⟨q, List.mem_cons_of_mem _ hq, c⟩
        · rintro (c | ⟨q, hq, c⟩)
          · exact .inl c
          · rcases List.mem_cons.1 hq with e | hq
            · rw [e] at c; exact absurd hs c
            · exact .inr ⟨q, hq, c⟩
      · intro q hq j hj
        rcases List.mem_cons.1 hq with e | hq
        · rw [e, hs] at hj; cases hj
        · exact h3 q hq j hj
      · intro i hi
        exact h4 i (fun q hq => hi q (List.mem_cons_of_mem _ hq))
    | some j =>
      rw [hs] at h
      simp only [Outcome.bind_eq_ok] at h
      obtain ⟨img, hw, h⟩ := h
      obtain ⟨w1, w2, w3⟩ := writeSamples_ok (hW p List.mem_cons_self) List.nodup_range
        (fun k hk => List.mem_range.1 hk) hw
      obtain ⟨h1, h2, h3, h4⟩ := writeFaces_ok hW' ha.2 h
      refine ⟨h1.trans w1, ?_, ?_, ?_⟩
      · constructor
        · intro _
          exact .inr ⟨p, List.mem_cons_self, by rw [hs]; exact Option.some_ne_none j⟩
        · intro _
          exact h2.2 (.inl rfl)
      · intro q hq j' hj'
        rcases List.mem_cons.1 hq with e | hq
        · rw [e, hs] at hj'
          injection hj' with hj'
          rw [e, ← hj']
          intro k hk
          obtain ⟨v, v1, v2⟩ := w2 k (List.mem_range.2 hk)
          refine ⟨v, v1, ?_⟩
          rw [h4 (cell W p k)]
          · exact v2
          · intro q2 hq2 _ k2 hk2
            exact cells_apart (hW p List.mem_cons_self) (hW' q2 hq2) (ha.1 q2 hq2) hk hk2
        · exact h3 q hq j' hj'
      · intro i hi
        rw [h4 i (fun q hq => hi q (List.mem_cons_of_mem _ hq))]
        exact w3 i (fun k hk => hi p List.mem_cons_self (by rw [hs]; exact Option.some_ne_none j) k (List.mem_range.1 hk))

/-! Writing is defined if the data is there. -/

theorem byte_ok {d : Data} {i : Int} (h0 : 0 ≤ i) (h1 : i < d.bytes.length) : ∃ v, byte d i = .ok v := by
  unfold byte
  rw [if_pos h0]
  unfold Outcome.readAt
  rw [List.getElem?_eq_getElem (by omega)]
  exact ⟨_, rfl⟩

theorem sample_ok {d : Data} {i : Int} (h0 : 0 ≤ i) (h1 : i + (if d.rgb then 3 else 1) ≤ d.bytes.length) :
    ∃ v, sample d i = .ok v := by
  unfold sample
  cases hr : d.rgb with
  | true =>
    rw [hr] at h1
    simp only [if_true] at h1
    obtain ⟨a, ha⟩ := byte_ok h0 (by omega : i < d.bytes.length)
    obtain ⟨b, hb⟩ := byte_ok (by omega : 0 ≤ i + 1) (by omega : i + 1 < d.bytes.length)
    obtain ⟨c, hc⟩ := byte_ok (by omega : 0 ≤ i + 2) (by omega : i + 2 < d.bytes.length)
    rw [if_pos rfl, ha, hb, hc]
    exact ⟨_, rfl⟩
  | false =>
    rw [hr] at h1
    simp only [Bool.false_eq_true, if_false] at h1
    obtain ⟨a, ha⟩ := byte_ok h0 (by omega : i < d.bytes.length)
    simp only [Bool.false_eq_true, if_false]
    rw [ha]
    exact ⟨_, rfl⟩

theorem writeSamples_def {d : Data} {W H : Nat} {p : Placed} {base : Int} (hW : p.x + p.rect.w ≤ W)
    (hH : p.y + p.rect.h ≤ H) (h0 : 0 ≤ base) (h1 : base + (p.rect.w * p.rect.h * d.step : Nat) ≤ d.bytes.length) :
    ∀ {ks : List Nat} {img : List Pixel}, (∀ k ∈ ks, k < p.rect.w * p.rect.h) → img.length = W * H →
    ∃ img', writeSamples d W p base ks img = .ok img' ∧ img'.length = W * H
  | [], img, _, hl => ⟨img, rfl, hl⟩
  | k :: ks, img, hk, hl => by
    have hk0 := hk k List.mem_cons_self
    have hb : base + (k * d.step : Nat) + (if d.rgb then 3 else 1) ≤ d.bytes.length := by
      have e : ((if d.rgb then 3 else 1 : Int)) = (d.step : Int) := by
        unfold Data.step; cases d.rgb <;> rfl
      rw [e]
      have : (k + 1) * d.step ≤ p.rect.w * p.rect.h * d.step := Nat.mul_le_mul_right _ hk0
      have e2 : (k + 1) * d.step = k * d.step + d.step := by ring
      omega
    obtain ⟨v, hv⟩ := sample_ok (by omega : 0 ≤ base + (k * d.step : Nat)) hb
    obtain ⟨a, b⟩ := cell_lt hk0
    have hi : (p.y + k / p.rect.w) * W + (p.x + k % p.rect.w) < img.length := by
      rw [hl]; exact index_lt (by omega) (by omega)
    obtain ⟨img', h2, h3⟩ := writeSamples_def hW hH h0 h1 (ks := ks)
      (img := img.set ((p.y + k / p.rect.w) * W + (p.x + k % p.rect.w)) v)
      (fun k' hk' => hk k' (List.mem_cons_of_mem _ hk')) (by rw [List.length_set]; exact hl)
    refine ⟨img', ?_, h3⟩
    unfold writeSamples
    rw [hv, Outcome.ok_bind, Outcome.writeAt, if_pos hi, Outcome.ok_bind]
    exact h2

theorem writeFaces_def {d : Data} {W H style : Nat} : ∀ {ps : List Placed} {s : List Pixel × Bool},
    (∀ p ∈ ps, p.x + p.rect.w ≤ W ∧ p.y + p.rect.h ≤ H) →
    (∀ p ∈ ps, ∀ j, slot p.rect style = some j → 0 ≤ start d p.rect j ∧
      start d p.rect j + (p.rect.w * p.rect.h * d.step : Nat) ≤ d.bytes.length) → s.1.length = W * H →
    ∃ s', writeFaces d W style ps s = .ok s'
  | [], s, _, _, _ => ⟨s, rfl⟩
  | p :: ps, s, hW, hd, hl => by
    have hW' : ∀ q ∈ ps, q.x + q.rect.w ≤ W ∧ q.y + q.rect.h ≤ H := fun q hq => hW q (List.mem_cons_of_mem _ hq)
    have hd' := fun q hq => hd q (List.mem_cons_of_mem p hq)
    unfold writeFaces
    cases hs : slot p.rect style with
    | none => exact writeFaces_def hW' hd' hl
    | some j =>
      obtain ⟨a, b⟩ := hd p List.mem_cons_self j hs
      obtain ⟨img, h1, h2⟩ := writeSamples_def (hW p List.mem_cons_self).1 (hW p List.mem_cons_self).2 a b
        (fun k hk => List.mem_range.1 hk) hl
      simp only [h1, Outcome.ok_bind]
      exact writeFaces_def hW' hd' h2

/-! The specification's words. -/

theorem slot_iff {r : Rect} {style j : Nat} : slot r style = some j ↔ Spec.IsSlot r style j := by
  unfold slot Spec.IsSlot
  rw [List.findIdx?_eq_some_iff_getElem]
  constructor
  · rintro ⟨h, h1, h2⟩
    rw [List.length_take] at h
    refine ⟨by omega, ?_, ?_⟩
    · rw [List.getElem?_eq_getElem (by omega)]
      simp only [List.getElem_take, beq_iff_eq] at h1
      rw [h1]
    · intro i hi e
      have := h2 i hi
      simp only [List.getElem_take, beq_iff_eq] at this
      rw [List.getElem?_eq_getElem (by omega)] at e
      injection e with e
      simp [e] at this
  · rintro ⟨h, h1, h2⟩
    have hl : j < r.styles.length := by
      rcases Nat.lt_or_ge j r.styles.length with c | c
      · exact c
      · rw [List.getElem?_eq_none c] at h1; cases h1
    refine ⟨by rw [List.length_take]; omega, ?_, ?_⟩
    · simp only [List.getElem_take, beq_iff_eq]
      rw [List.getElem?_eq_getElem hl] at h1
      injection h1
    · intro i hi
      simp only [List.getElem_take, beq_iff_eq]
      intro e
      apply h2 i hi
      rw [List.getElem?_eq_getElem (by omega)]
      simpa using e

theorem sample_color {d : Data} {i : Int} {v : Pixel} (h : sample d i = .ok v) : Spec.HasColor d i v := by
  have hb : ∀ {i : Int} {v : Nat}, byte d i = .ok v → 0 ≤ i ∧ d.bytes[i.toNat]? = some v := by
    intro i v h
    unfold byte at h
    by_cases c : 0 ≤ i
    · rw [if_pos c] at h
      refine ⟨c, ?_⟩
      unfold Outcome.readAt at h
      cases e : d.bytes[i.toNat]? with
      | none => rw [e] at h; cases h
      | some a => rw [e] at h; injection h with h; rw [h]
    · rw [if_neg c] at h; cases h
  unfold sample at h
  unfold Spec.HasColor
  cases hr : d.rgb with
  | true =>
    rw [hr, if_pos rfl] at h
    simp only [Outcome.bind_eq_ok] at h
    obtain ⟨r, h1, g, h2, b, h3, h4⟩ := h
    have h4' : Outcome.ok (r, g, b, 255) = Outcome.ok v := h4
    injection h4' with h4'
    obtain ⟨a1, a2⟩ := hb h1
    obtain ⟨_, b2⟩ := hb h2
    obtain ⟨_, c2⟩ := hb h3
    rw [if_pos rfl, ← h4']
    rw [Int.toNat_add a1 (by omega)] at b2 c2
    exact ⟨a1, a2, b2, c2, rfl⟩
  | false =>
    rw [hr] at h
    simp only [Bool.false_eq_true, if_false, Outcome.bind_eq_ok] at h
    obtain ⟨r, h1, h4⟩ := h
    have h4' : Outcome.ok (r, r, r, 255) = Outcome.ok v := h4
    injection h4' with h4'
    obtain ⟨a1, a2⟩ := hb h1
    simp only [Bool.false_eq_true, if_false]
    rw [← h4']
    exact ⟨a1, a2, rfl, rfl, rfl⟩

theorem start_address (d : Data) (r : Rect) (j dx dy : Nat) :
    start d r j + (((dy * r.w + dx) * d.step : Nat) : Int) = Spec.address d r j dx dy := by
  unfold start Spec.address Data.step
  cases d.lit <;> cases d.rgb <;> simp <;> ring

end Verif.Atlas
