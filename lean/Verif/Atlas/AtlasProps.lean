import Mathlib.Algebra.Order.Ring.Rat
import Mathlib.Algebra.Field.Rat
import Mathlib.Algebra.Order.Field.Basic
import Mathlib.Tactic.FieldSimp
import Verif.Atlas.Lemmas

/-!
C164: the images of the lightmaps of a map. Every face has a place of its own, where the image of a style shows the samples
of the face for this style; the texture coordinates of the face stay within this place.
-/

namespace Verif.Atlas

open Verif

/-- The packing ends if no lightmap has 512 rows or more. -/
theorem packing_ends_partial {l : List Rect} (h : ∀ r ∈ l, r.h < 512) : ∃ ps, ∀ fuel, 2 ≤ fuel → pack fuel l = some ps := by
  have hs : ∀ r ∈ sorted l, r.h < 512 := fun r hr => h r ((sorted_perm l).mem_iff.1 hr)
  obtain ⟨_, x, hx⟩ := packFrom_ends (n := 0) (sorted l) 0 {} hs
  obtain ⟨qs, n⟩ := x
  refine ⟨qs.map (spread (ceilSqrt (n + 1))), ?_⟩
  intro fuel hf
  obtain ⟨k, hk⟩ := Nat.exists_eq_add_of_le hf
  have e : fuel = k + 2 := by omega
  unfold pack
  rw [e, (packFrom_ends (n := k) (sorted l) 0 {} hs).1, hx]

/-- The packing never ends if there is a lightmap with 512 rows or more: new tiles are made until the memory is used up. -/
theorem tall_face_hangs {l : List Rect} {r : Rect} (hr : r ∈ l) (h : 512 ≤ r.h) (fuel : Nat) (d : Data) (dark : Bool) :
    build fuel d dark l = none := by
  unfold build
  rw [if_neg (List.ne_nil_of_mem hr)]
  unfold pack
  rw [packFrom_tall (sorted l) 0 {} ⟨r, (sorted_perm l).mem_iff.2 hr, h⟩]

/-- Every face has exactly one place. -/
theorem every_face_placed {fuel : Nat} {l : List Rect} {ps : List Placed} (h : pack fuel l = some ps) :
    (ps.map (·.rect)).Perm l := (pack_ok h).1

/-- The places do not overlap, if no lightmap has 512 columns or more. -/
theorem places_apart_partial {fuel : Nat} {l : List Rect} {ps : List Placed} (h : pack fuel l = some ps)
    (hw : ∀ r ∈ l, r.w < 512) : ps.Pairwise Spec.Apart := (pack_ok h).2 hw

theorem images_mem {d : Data} {dark : Bool} {ps : List Placed} : ∀ {ss : List Nat} {is : List (Nat × List Pixel)},
    images d dark ps ss = .ok is → ∀ s img, (s, img) ∈ is ↔ s ∈ ss ∧ styleImage d dark ps s = .ok (some img)
  | [], is, h, s, img => by
    simp only [images, Outcome.ok.injEq] at h
    rw [← h]
    simp
  | t :: ss, is, h, s, img => by
    simp only [images, Outcome.bind_eq_ok] at h
    obtain ⟨i, hi, rest, hr, h⟩ := h
    have ih := images_mem hr s img
    rw [List.mem_cons]
    cases i with
    | none =>
      have h' : Outcome.ok rest = Outcome.ok is := h
      injection h' with h'
      rw [← h']
      rw [ih]
      constructor
      · rintro ⟨a, b⟩; exact ⟨.inr a, b⟩
      · rintro ⟨a | a, b⟩
        · rw [a, hi] at b; cases b
        · exact ⟨a, b⟩
    | some im =>
      have h' : Outcome.ok ((t, im) :: rest) = Outcome.ok is := h
      injection h' with h'
      rw [← h', List.mem_cons, ih]
      constructor
      · rintro (e | ⟨a, b⟩)
        · injection e with e1 e2
          rw [e1, e2]
          exact ⟨.inl rfl, hi⟩
        · exact ⟨.inr a, b⟩
      · rintro ⟨a | a, b⟩
        · left
          rw [a, hi] at b
          injection b with b
          injection b with b
          rw [a, b]
        · right; exact ⟨a, b⟩

/-- What is known about the result. -/
theorem build_ok {fuel : Nat} {d : Data} {dark : Bool} {l : List Rect} {ps : List Placed}
    {is : List (Nat × List Pixel)} (h : build fuel d dark l = some (.ok (ps, is))) :
    (l = [] ∧ ps = [] ∧ is = []) ∨ (pack fuel l = some ps ∧ images d dark ps styleRange = .ok is) := by
  unfold build at h
  by_cases e : l = []
  · rw [if_pos e] at h
    injection h with h
    injection h with h
    injection h with h1 h2
    exact .inl ⟨e, h1.symm, h2.symm⟩
  · rw [if_neg e] at h
    right
    cases hp : pack fuel l with
    | none => rw [hp] at h; cases h
    | some qs =>
      rw [hp] at h
      simp only [Option.some.injEq, Outcome.bind_eq_ok] at h
      obtain ⟨js, hj, h⟩ := h
      have h' : Outcome.ok (qs, js) = Outcome.ok (ps, is) := h
      injection h' with h'
      injection h' with h1 h2
      rw [← h1, ← h2]
      exact ⟨rfl, hj⟩

theorem style_ok {d : Data} {dark : Bool} {ps : List Placed} {style : Nat} {img : List Pixel}
    (h : styleImage d dark ps style = .ok (some img)) : dark = false ∧
    writeFaces d (width ps) style ps (List.replicate (width ps * height ps) (0, 0, 0, 0), false) = .ok (img, true) := by
  unfold styleImage at h
  cases dark with
  | true => rw [if_pos rfl] at h; cases h
  | false =>
    simp only [Bool.false_eq_true, if_false, Outcome.bind_eq_ok] at h
    obtain ⟨r, hr, h⟩ := h
    have h' : Outcome.ok (if r.2 then some r.1 else none) = Outcome.ok (some img) := h
    injection h' with h'
    refine ⟨rfl, ?_⟩
    rw [hr]
    cases e : r.2 with
    | false => rw [e] at h'; cases h'
    | true =>
      rw [e, if_pos rfl] at h'
      injection h' with h'
      rw [← h', ← e]

/-- The image of a style shows the samples of every face that has this style, at the place of the face, as opaque pixels. -/
theorem image_shows_samples_partial {fuel : Nat} {d : Data} {dark : Bool} {l : List Rect} {ps : List Placed}
    {is : List (Nat × List Pixel)} (h : build fuel d dark l = some (.ok (ps, is))) (hw : ∀ r ∈ l, r.w < 512)
    {style : Nat} {img : List Pixel} (hi : (style, img) ∈ is) {p : Placed} (hp : p ∈ ps) {j : Nat}
    (hj : Spec.IsSlot p.rect style j) {dx dy : Nat} (hx : dx < p.rect.w) (hy : dy < p.rect.h) :
    ∃ v, Spec.HasColor d (Spec.address d p.rect j dx dy) v ∧
      img[(p.y + dy) * width ps + (p.x + dx)]? = some v := by
  rcases build_ok h with ⟨_, _, e⟩ | ⟨hpk, him⟩
  · rw [e] at hi; exact absurd hi List.not_mem_nil
  · obtain ⟨_, hs⟩ := (images_mem him style img).1 hi
    obtain ⟨_, hwf⟩ := style_ok hs
    obtain ⟨_, _, h3, _⟩ := writeFaces_ok (fun q hq => width_le hq) (places_apart_partial hpk hw) hwf
    have hk : dy * p.rect.w + dx < p.rect.w * p.rect.h := index_lt hx hy
    obtain ⟨v, v1, v2⟩ := h3 p hp j (slot_iff.2 hj) _ hk
    refine ⟨v, ?_, ?_⟩
    · rw [start_address] at v1
      exact sample_color v1
    · unfold cell at v2
      have e1 : (dy * p.rect.w + dx) / p.rect.w = dy := by
        rw [Nat.mul_comm, Nat.mul_add_div (by omega), Nat.div_eq_of_lt hx, Nat.add_zero]
      have e2 : (dy * p.rect.w + dx) % p.rect.w = dx := by
        rw [Nat.mul_comm, Nat.mul_add_mod]; exact Nat.mod_eq_of_lt hx
      rw [e1, e2] at v2
      exact v2

/-- All other pixels of the image are 0. -/
theorem image_clear_elsewhere_partial {fuel : Nat} {d : Data} {dark : Bool} {l : List Rect} {ps : List Placed}
    {is : List (Nat × List Pixel)} (h : build fuel d dark l = some (.ok (ps, is))) (hw : ∀ r ∈ l, r.w < 512)
    {style : Nat} {img : List Pixel} (hi : (style, img) ∈ is) {x y : Nat} (hx : x < width ps) (hy : y < height ps)
    (ho : ∀ p ∈ ps, Spec.Inside p x y → ∀ j, ¬ Spec.IsSlot p.rect style j) :
    img[y * width ps + x]? = some (0, 0, 0, 0) := by
  rcases build_ok h with ⟨_, _, e⟩ | ⟨hpk, him⟩
  · rw [e] at hi; exact absurd hi List.not_mem_nil
  · obtain ⟨_, hs⟩ := (images_mem him style img).1 hi
    obtain ⟨_, hwf⟩ := style_ok hs
    obtain ⟨_, _, _, h4⟩ := writeFaces_ok (fun q hq => width_le hq) (places_apart_partial hpk hw) hwf
    have := h4 (y * width ps + x) (by
      intro q hq hsl k hk e
      obtain ⟨a, b⟩ := cell_lt hk
      have hqw := width_le hq
      unfold cell at e
      obtain ⟨e1, e2⟩ := index_inj hx (show q.x + k % q.rect.w < width ps by omega) e
      cases hj : slot q.rect style with
      | none => exact hsl hj
      | some j =>
        refine ho q hq ?_ j (slot_iff.1 hj)
        unfold Spec.Inside
        generalize k % q.rect.w = a1 at *
        generalize k / q.rect.w = a2 at *
        omega)
    simp only at this
    rw [this]
    have hl := index_lt hx hy
    rw [List.getElem?_replicate, if_pos hl]

/-- There is an image for every style below 254 that a face has, and for no other. -/
theorem styles_with_images_partial {fuel : Nat} {d : Data} {l : List Rect} {ps : List Placed}
    {is : List (Nat × List Pixel)} (h : build fuel d false l = some (.ok (ps, is))) (hw : ∀ r ∈ l, r.w < 512) (style : Nat) :
    (∃ img, (style, img) ∈ is) ↔ style < 254 ∧ ∃ r ∈ l, ∃ j, Spec.IsSlot r style j := by
  rcases build_ok h with ⟨el, _, ei⟩ | ⟨hpk, him⟩
  · rw [el, ei]
    constructor
    · rintro ⟨img, hi⟩; exact absurd hi List.not_mem_nil
    · rintro ⟨_, r, hr, _⟩; exact absurd hr List.not_mem_nil
  · have hperm := every_face_placed hpk
    constructor
    · rintro ⟨img, hi⟩
      obtain ⟨hm, hs⟩ := (images_mem him style img).1 hi
      obtain ⟨_, hwf⟩ := style_ok hs
      obtain ⟨_, h2, _, _⟩ := writeFaces_ok (fun q hq => width_le hq) (places_apart_partial hpk hw) hwf
      refine ⟨List.mem_range.1 hm, ?_⟩
      rcases h2.1 rfl with c | ⟨p, hp, c⟩
      · cases c
      · refine ⟨p.rect, hperm.mem_iff.1 (List.mem_map.2 ⟨p, hp, rfl⟩), ?_⟩
        cases hj : slot p.rect style with
        | none => exact absurd hj c
        | some j => exact ⟨j, slot_iff.1 hj⟩
    · rintro ⟨hs, r, hr, j, hj⟩
      obtain ⟨p, hp, e⟩ := List.mem_map.1 (hperm.mem_iff.2 hr)
      -- the image of the style was made, since all images were made
      have hdef : ∀ {ss : List Nat} {js}, images d false ps ss = .ok js → ∀ s ∈ ss, ∃ o, styleImage d false ps s = .ok o := by
        intro ss
        induction ss with
        | nil => intro js _ s hs; exact absurd hs List.not_mem_nil
        | cons t ss ih =>
          intro js hj s hs
          simp only [images, Outcome.bind_eq_ok] at hj
          obtain ⟨i, hi, rest, hr, _⟩ := hj
          rcases List.mem_cons.1 hs with e | hs
          · rw [e]; exact ⟨i, hi⟩
          · exact ih hr s hs
      obtain ⟨o, ho⟩ := hdef him style (List.mem_range.2 hs)
      cases o with
      | some img => exact ⟨img, (images_mem him style img).2 ⟨List.mem_range.2 hs, ho⟩⟩
      | none =>
        exfalso
        unfold styleImage at ho
        simp only [Bool.false_eq_true, if_false, Outcome.bind_eq_ok] at ho
        obtain ⟨x, hx, ho⟩ := ho
        have ho' : Outcome.ok (if x.2 then some x.1 else none) = Outcome.ok none := ho
        injection ho' with ho'
        obtain ⟨_, h2, _, _⟩ := writeFaces_ok (fun q hq => width_le hq) (places_apart_partial hpk hw) hx
        have : x.2 = true := h2.2 (.inr ⟨p, hp, by rw [e, slot_iff.2 hj]; exact Option.some_ne_none j⟩)
        rw [this, if_pos rfl] at ho'
        cases ho'

/-- Nothing is read or written outside of the data and the images, if the samples of all faces are in the light data. -/
theorem atlas_defined {l : List Rect} (h : ∀ r ∈ l, r.h < 512) {d : Data} (hd : ∀ r ∈ l, Spec.DataPresent d r)
    (dark : Bool) {fuel : Nat} (hf : 2 ≤ fuel) : ∃ r, build fuel d dark l = some (.ok r) := by
  unfold build
  by_cases e : l = []
  · rw [if_pos e]; exact ⟨_, rfl⟩
  · rw [if_neg e]
    obtain ⟨ps, hps⟩ := packing_ends_partial h
    rw [hps fuel hf]
    have hperm := every_face_placed (hps fuel hf)
    have key : ∀ s, s < 254 → ∃ o, styleImage d dark ps s = .ok o := by
      intro s hs
      unfold styleImage
      cases dark with
      | true => exact ⟨none, rfl⟩
      | false =>
        simp only [Bool.false_eq_true, if_false]
        obtain ⟨r, hr⟩ := writeFaces_def (d := d) (W := width ps) (H := height ps) (style := s) (ps := ps)
          (s := (List.replicate (width ps * height ps) (0, 0, 0, 0), false))
          (fun p hp => ⟨width_le hp, height_le hp⟩) (by
            intro p hp j hj
            have hr : p.rect ∈ l := hperm.mem_iff.1 (List.mem_map.2 ⟨p, hp, rfl⟩)
            obtain ⟨a, b⟩ := hd p.rect hr s j hs (slot_iff.1 hj)
            have hst := start_address d p.rect j 0 0
            simp only [Nat.zero_mul, Nat.add_zero, Nat.cast_zero, Int.add_zero] at hst
            rw [← hst] at a b
            refine ⟨a, ?_⟩
            have e : ((p.rect.w * p.rect.h * d.step : Nat) : Int) =
                (if d.rgb then 3 else 1) * ((p.rect.w * p.rect.h : Nat) : Int) := by
              unfold Data.step
              cases d.rgb
              · simp
              · simp; ring
            rw [e]; exact b) (by simp)
        rw [hr]
        exact ⟨_, rfl⟩
    have all : ∀ ss : List Nat, (∀ s ∈ ss, s < 254) → ∃ is, images d dark ps ss = .ok is := by
      intro ss
      induction ss with
      | nil => intro _; exact ⟨[], rfl⟩
      | cons s ss ih =>
        intro hs
        obtain ⟨o, ho⟩ := key s (hs s List.mem_cons_self)
        obtain ⟨is, hi⟩ := ih (fun t ht => hs t (List.mem_cons_of_mem _ ht))
        simp only [images, ho, hi, Outcome.ok_bind]
        exact ⟨_, rfl⟩
    obtain ⟨is, hi⟩ := all styleRange (fun s hs => List.mem_range.1 hs)
    exact ⟨(ps, is), by simp only [hi]; rfl⟩

/-- The texture coordinates of a face stay half a pixel within the place of the face: `c` is a lightmap coordinate, which is
between 0 and the extent (`Extents.face_covered`). -/
theorem uv_within {K : Type} [Field K] [LinearOrder K] [IsStrictOrderedRing K] {ps : List Placed} {p : Placed} (hp : p ∈ ps)
    (hw : 0 < p.rect.w) (hh : 0 < p.rect.h) {c : K × K} (h1 : 0 ≤ c.1) (h2 : c.1 ≤ p.rect.w - 1) (h3 : 0 ≤ c.2)
    (h4 : c.2 ≤ p.rect.h - 1) :
    (p.x : K) + 1 / 2 ≤ (uv ps p c).1 * width ps ∧ (uv ps p c).1 * width ps ≤ p.x + p.rect.w - 1 / 2 ∧
    (p.y : K) + 1 / 2 ≤ (uv ps p c).2 * height ps ∧ (uv ps p c).2 * height ps ≤ p.y + p.rect.h - 1 / 2 ∧
    0 ≤ (uv ps p c).1 ∧ (uv ps p c).1 ≤ 1 ∧ 0 ≤ (uv ps p c).2 ∧ (uv ps p c).2 ≤ 1 := by
  have hW := width_le hp
  have hH := height_le hp
  have pW : (0 : K) < width ps := Nat.cast_pos.2 (by omega)
  have pH : (0 : K) < height ps := Nat.cast_pos.2 (by omega)
  have cW : (p.x : K) + p.rect.w ≤ width ps := by exact_mod_cast hW
  have cH : (p.y : K) + p.rect.h ≤ height ps := by exact_mod_cast hH
  have nx : (0 : K) ≤ p.x := Nat.cast_nonneg _
  have ny : (0 : K) ≤ p.y := Nat.cast_nonneg _
  unfold uv
  simp only
  rw [div_mul_cancel₀ _ (ne_of_gt pW), div_mul_cancel₀ _ (ne_of_gt pH)]
  refine ⟨by linarith, by linarith, by linarith, by linarith, ?_, ?_, ?_, ?_⟩
  · exact div_nonneg (by linarith) (le_of_lt pW)
  · rw [div_le_one pW]; linarith
  · exact div_nonneg (by linarith) (le_of_lt pH)
  · rw [div_le_one pH]; linarith

/-- Two faces of two by one and one by two samples. -/
def exampleRects : List Rect := [⟨0, 2, 1, 0, [0, 255, 255, 255]⟩, ⟨1, 1, 2, 2, [0, 32, 255, 255]⟩]

def exampleData : Data := ⟨[10, 20, 30, 40, 50, 60], false, false⟩

set_option maxRecDepth 20000 in
/-- The higher one comes first; there are images for the styles 0 and 32, which show the samples. -/
example : build 2 exampleData false exampleRects = some (.ok
    ([⟨⟨1, 1, 2, 2, [0, 32, 255, 255]⟩, 0, 0, 0⟩, ⟨⟨0, 2, 1, 0, [0, 255, 255, 255]⟩, 0, 1, 0⟩],
     [(0, [(30, 30, 30, 255), (10, 10, 10, 255), (20, 20, 20, 255), (40, 40, 40, 255), (0, 0, 0, 0), (0, 0, 0, 0)]),
      (32, [(50, 50, 50, 255), (0, 0, 0, 0), (0, 0, 0, 0), (60, 60, 60, 255), (0, 0, 0, 0), (0, 0, 0, 0)])])) := by
  rfl

example : (∀ r ∈ exampleRects, r.w < 512 ∧ r.h < 512) ∧ Spec.IsSlot ⟨1, 1, 2, 2, [0, 32, 255, 255]⟩ 32 1 := by
  refine ⟨by decide, by decide, rfl, ?_⟩
  intro i hi
  have : i = 0 := by omega
  rw [this]
  decide

/-- A lightmap of more than 511 columns reaches into the next tile and covers the lightmap of another face. -/
theorem wide_face_overlaps : ∃ p q, pack 2 [⟨0, 600, 300, 0, [0]⟩, ⟨1, 10, 300, 180000, [0]⟩] = some [p, q] ∧
    ¬ Spec.Apart p q := by
  refine ⟨⟨⟨0, 600, 300, 0, [0]⟩, 0, 0, 0⟩, ⟨⟨1, 10, 300, 180000, [0]⟩, 1, 512, 0⟩, by decide +kernel, ?_⟩
  unfold Spec.Apart
  simp only
  omega

/-- The light of the style 254 is in no image. -/
theorem style_254_lost {fuel : Nat} {d : Data} {dark : Bool} {l : List Rect} {ps : List Placed}
    {is : List (Nat × List Pixel)} (h : build fuel d dark l = some (.ok (ps, is))) (img : List Pixel) : (254, img) ∉ is := by
  rcases build_ok h with ⟨_, _, e⟩ | ⟨_, him⟩
  · rw [e]; exact List.not_mem_nil
  · intro hi
    have := ((images_mem him 254 img).1 hi).1
    exact absurd (List.mem_range.1 this) (by omega)

end Verif.Atlas
