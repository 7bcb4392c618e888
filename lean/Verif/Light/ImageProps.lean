import Mathlib.Tactic.FinCases
import Mathlib.Data.Fintype.Basic
import Mathlib.Tactic.NormNum
import Verif.Light.FloodLemmas

/-!
Properties of the treatment of a single lightmap.
-/

namespace Verif.Light

/-- What filling must give: visible samples stay as they are; all samples are visible
afterwards, unless none was visible, and then nothing changes; the channels of filled samples
are between those of the visible samples of the input. -/
structure Filled (img res : List Px) : Prop where
  length : res.length = img.length
  keeps : ∀ (i : Nat) (p : Px), img[i]? = some p → p.a = true → res[i]? = some p
  visible : (∃ p ∈ img, p.a = true) → ∀ p ∈ res, p.a = true
  blank : (∀ p ∈ img, p.a = false) → res = img
  between : ∀ ch lo hi, (∀ p ∈ img, p.a = true → lo ≤ p.col ch ∧ p.col ch ≤ hi) →
    ∀ p ∈ res, p.a = true → lo ≤ p.col ch ∧ p.col ch ≤ hi

theorem opaque_of_mem {img : List Px} {p : Px} (hp : p ∈ img) (ha : p.a = true) :
    ∃ i, i < img.length ∧ Opaque img i := by
  obtain ⟨i, hi, rfl⟩ := List.getElem_of_mem hp
  exact ⟨i, hi, _, List.getElem?_eq_getElem hi, ha⟩

theorem flood_visible {w h : Nat} : ∀ (n : Nat) (img : List Px), img.length = w * h →
    hidden img < n → (∃ i, i < img.length ∧ Opaque img i) →
    ∃ res, flood w h n img = some (.ok res) ∧ res.length = img.length ∧ Keeps img res ∧
      (∀ i, i < res.length → Opaque res i) ∧
      ∀ ch lo hi, VisBetween ch lo hi img → VisBetween ch lo hi res := by
  intro n
  induction n with
  | zero => intro img _ h; omega
  | succ n ih =>
    intro img hl hn hex
    obtain ⟨i0, hi0, ho0⟩ := hex
    obtain ⟨img', u, hr, ok⟩ := fillRound_spec (coords w h) img 0 hl (fun _ hp => hp)
    have hu : u ≠ img.length := by
      intro h
      have h0 := ok.none (by rw [coords_length, h, hl, Nat.zero_add])
      obtain ⟨x, y, hx, hy, rfl⟩ := exists_coords (hl ▸ hi0)
      exact h0 (x, y) (mem_coords.2 ⟨hx, hy⟩) ho0
    unfold flood
    rw [hr]
    simp only
    rw [if_neg hu]
    by_cases h0 : u = 0
    · rw [if_pos h0]
      refine ⟨img', rfl, ok.len, ok.keeps, ?_, ok.between⟩
      intro i hi
      rw [ok.len, hl] at hi
      obtain ⟨x, y, hx, hy, rfl⟩ := exists_coords hi
      exact ok.all h0 (x, y) (mem_coords.2 ⟨hx, hy⟩)
    · rw [if_neg h0]
      have hless : hidden img' < hidden img := by
        by_cases hall : ∀ i, i < img.length → Opaque img i
        · exfalso
          -- if all samples are visible, nothing is left over
          have key : ∀ (cs : List (Nat × Nat)), (∀ p ∈ cs, p ∈ coords w h) →
              fillRound w h (img, 0) cs = .ok (img, 0) := by
            intro cs
            induction cs with
            | nil => intro _; rfl
            | cons p cs ih' =>
              intro hcs
              have hp := hcs p (by simp)
              have hin : p.2 * w + p.1 < img.length := by
                obtain ⟨hx, hy⟩ := mem_coords.1 hp
                rw [hl]; exact index_lt hx hy
              unfold fillRound
              rcases fillOne_spec hl hp 0 with ⟨_, h2⟩ | ⟨h1, _⟩ | ⟨h1, _⟩
              · rw [h2]; exact ih' (fun q hq => hcs q (by simp [hq]))
              · exact absurd (hall _ hin) h1
              · exact absurd (hall _ hin) h1
          rw [key _ (fun _ hp => hp)] at hr
          simp only [Outcome.ok.injEq, Prod.mk.injEq] at hr
          exact h0 hr.2.symm
        · push Not at hall
          obtain ⟨j, hj, hjn⟩ := hall
          obtain ⟨p, hp, hpn, hk⟩ := frontier (P := Opaque img) (hl ▸ hi0) (hl ▸ hj) ho0 hjn
          have hin : p.2 * w + p.1 < img.length := by
            obtain ⟨hx, hy⟩ := mem_coords.1 hp
            rw [hl]; exact index_lt hx hy
          exact hidden_lt ok.len ok.keeps hin hpn (ok.progress p hp hk)
      obtain ⟨res, h1, h2, h3, h4, h5⟩ := ih img' (by rw [ok.len, hl]) (by omega)
        ⟨i0, by rw [ok.len]; exact hi0, ok.keeps.opaque ho0⟩
      refine ⟨res, h1, by rw [h2, ok.len], ?_, h4, fun ch lo hi hb => h5 ch lo hi (ok.between ch lo hi hb)⟩
      intro i p hp ha
      exact h3 i p (ok.keeps i p hp ha) ha

theorem hidden_le_length (img : List Px) : hidden img ≤ img.length := List.countP_le_length

/-- **C115.** The filling of hidden samples ends, after at most as many rounds as there are
hidden samples and one more, and gives what it must give. -/
theorem flood_fills {w h : Nat} {img : List Px} (hl : img.length = w * h) {n : Nat}
    (hn : (img.countP fun p => !p.a) < n) :
    ∃ res, flood w h n img = some (.ok res) ∧ Filled img res := by
  by_cases hex : ∃ p ∈ img, p.a = true
  · have ⟨p, hp, ha⟩ := hex
    obtain ⟨res, h1, h2, h3, h4, h5⟩ := flood_visible n img hl hn (opaque_of_mem hp ha)
    refine ⟨res, h1, h2, h3, ?_, ?_, h5⟩
    · intro _ q hq
      obtain ⟨i, hi, rfl⟩ := List.getElem_of_mem hq
      obtain ⟨q, hq', ha'⟩ := h4 i hi
      rw [List.getElem?_eq_getElem hi, Option.some.injEq] at hq'
      rw [hq']; exact ha'
    · intro hb
      rw [hb p hp] at ha
      exact absurd ha (by simp)
  · push Not at hex
    have hno : ∀ i, ¬Opaque img i := by
      rintro i ⟨p, hp, ha⟩
      exact hex p (List.mem_of_getElem? hp) ha
    cases n with
    | zero => omega
    | succ n =>
      refine ⟨img, ?_, rfl, fun _ _ h _ => h, ?_, fun _ => rfl, fun _ _ _ h => h⟩
      · unfold flood
        rw [fillRound_hidden _ img 0 hl (fun _ hp => hp) hno]
        simp only
        rw [if_pos (by rw [coords_length, hl, Nat.zero_add])]
      · rintro ⟨p, hp, ha⟩
        exact absurd ha (hex p hp)

/-! ### Bytes -/

theorem floor_toNat_lt {q : ℚ} (h : q ≤ 255) : q.floor.toNat ≤ 255 := by
  have h1 : q.floor ≤ 255 := by
    have : ((q.floor : Int) : ℚ) ≤ q := Int.floor_le q
    have h2 : ((q.floor : Int) : ℚ) ≤ 255 := le_trans this h
    exact_mod_cast h2
  omega

theorem floor_mono {p q : ℚ} (h : p ≤ q) : p.floor.toNat ≤ q.floor.toNat := by
  have : p.floor ≤ q.floor := by
    have := Int.floor_le_floor h
    exact this
  omega

/-- The byte of a value from 0 to 255 is the value without its fraction. -/
theorem toByte_ok {q : ℚ} (h0 : 0 ≤ q) (h1 : q ≤ 255) :
    toByte q = .ok (UInt8.ofNat q.floor.toNat) ∧
      (UInt8.ofNat q.floor.toNat).toNat = q.floor.toNat := by
  refine ⟨?_, ?_⟩
  · unfold toByte
    rw [if_pos ⟨by linarith, by linarith⟩]
  · have := floor_toNat_lt h1
    rw [UInt8.toNat_ofNat']
    omega

theorem toByte_between {q : ℚ} {b : UInt8} (hb : toByte q = .ok b) {lo hi : Nat}
    (h0 : 0 ≤ q) (h1 : q ≤ 255) (hlo : (lo : ℚ) ≤ q) (hhi : q ≤ hi) :
    lo ≤ b.toNat ∧ b.toNat ≤ hi := by
  obtain ⟨h2, h3⟩ := toByte_ok h0 h1
  rw [h2, Outcome.ok.injEq] at hb
  subst hb
  rw [h3]
  have e : ∀ k : Nat, ((k : ℚ)).floor.toNat = k := by
    intro k
    have : ((k : ℚ)).floor = (k : Int) := by
      have := Int.floor_natCast (R := ℚ) k
      exact this
    rw [this]; simp
  constructor
  · have := floor_mono hlo; rwa [e] at this
  · have := floor_mono hhi; rwa [e] at this

theorem peak_floor {a b c : ℚ} : (max (max a b) c).floor.toNat =
    max (max a.floor.toNat b.floor.toNat) c.floor.toNat := by
  have hm : Monotone (fun q : ℚ => q.floor.toNat) := fun p q h => floor_mono h
  have h1 := hm.map_max (a := max a b) (b := c)
  have h2 := hm.map_max (a := a) (b := b)
  exact h1.trans (congrArg (fun x => max x c.floor.toNat) h2)

theorem greyOf_ok {c : Col} (h : ∀ i, 0 ≤ c i ∧ c i ≤ 255) :
    greyOf c = .ok (UInt8.ofNat (max (max (c 0).floor.toNat (c 1).floor.toNat) (c 2).floor.toNat)) := by
  have h0 : 0 ≤ max (max (c 0) (c 1)) (c 2) := le_max_of_le_right (h 2).1
  have h1 : max (max (c 0) (c 1)) (c 2) ≤ 255 := max_le (max_le (h 0).2 (h 1).2) (h 2).2
  unfold greyOf
  simp only
  rw [if_neg (not_lt.2 h0), if_neg (not_lt.2 h1), (toByte_ok h0 h1).1, peak_floor]

/-! ### The whole treatment -/

/-- The samples that count for the result: the visible ones, or all of them if none is
visible. -/
def Counts (img : List Px) (p : Px) : Prop :=
  p ∈ img ∧ (p.a = true ∨ ∀ q ∈ img, q.a = false)

/-- The image with the seams, if they are asked for. -/
def withSeams (k : ImgCfg) (img : List Px) : List Px := if k.seams then highlight img else img

theorem filled_all {img res : List Px} (hf : Filled img res) {ch : Fin 3} {lo hi : ℚ}
    (hb : ∀ p, Counts img p → lo ≤ p.col ch ∧ p.col ch ≤ hi) : AllBetween ch lo hi res := by
  by_cases hex : ∃ p ∈ img, p.a = true
  · intro p hp
    exact hf.between ch lo hi (fun q hq ha => hb q ⟨hq, Or.inl ha⟩) p hp (hf.visible hex p hp)
  · push Not at hex
    have hex : ∀ p ∈ img, p.a = false := fun p hp => by simpa using hex p hp
    rw [hf.blank hex]
    intro p hp
    exact hb p ⟨hp, Or.inr hex⟩

theorem sampleIndex_lt {aw ah ow oh : Nat} {p : Nat × Nat} (hw : 0 < aw) (hh : 0 < ah)
    (hp : p ∈ coords ow oh) : sampleIndex aw ah ow oh p < aw * ah := by
  obtain ⟨hx, hy⟩ := mem_coords.1 hp
  unfold sampleIndex
  have h1 : p.1 * aw / ow < aw := by
    rw [Nat.div_lt_iff_lt_mul (by omega), Nat.mul_comm aw]
    exact (Nat.mul_lt_mul_right hw).2 hx
  have h2 : p.2 * ah / oh < ah := by
    rw [Nat.div_lt_iff_lt_mul (by omega), Nat.mul_comm ah]
    exact (Nat.mul_lt_mul_right hh).2 hy
  exact index_lt h1 h2

theorem flatMap_length {α β : Type} {l : List α} {f : α → List β} {n : Nat}
    (h : ∀ x ∈ l, (f x).length = n) : (l.flatMap f).length = n * l.length := by
  induction l with
  | nil => simp
  | cons x l ih =>
    rw [List.flatMap_cons, List.length_append, h x (by simp), ih (fun y hy => h y (by simp [hy])),
      List.length_cons, Nat.mul_succ, Nat.add_comm]

theorem flatMap_three {α β : Type} {l : List α} {f : α → List β}
    (h : ∀ x ∈ l, (f x).length = 3) : ∀ {k : Nat} {x : α}, l[k]? = some x → ∀ j, j < 3 →
    (l.flatMap f)[3 * k + j]? = (f x)[j]? := by
  induction l with
  | nil => intro k x hx; simp at hx
  | cons y l ih =>
    intro k x hx j hj
    have hy := h y (by simp)
    cases k with
    | zero =>
      simp only [List.getElem?_cons_zero, Option.some.injEq] at hx
      subst hx
      rw [List.flatMap_cons, List.getElem?_append_left (by omega)]
      simp
    | succ k =>
      rw [List.getElem?_cons_succ] at hx
      rw [List.flatMap_cons, List.getElem?_append_right (by omega), hy]
      have : 3 * (k + 1) + j - 3 = 3 * k + j := by omega
      rw [this]
      exact ih (fun z hz => h z (by simp [hz])) hx j hj

theorem mem_getElem {α : Type} {l : List α} {k : Nat} (h : k < l.length) : ∃ x, l[k]? = some x :=
  ⟨_, List.getElem?_eq_getElem h⟩

theorem each_get {α β : Type} {f : α → Outcome β} {l : List α} {r : List β}
    (h : each f l = .ok r) {k : Nat} {x : α} (hx : l[k]? = some x) :
    ∃ y, r[k]? = some y ∧ f x = .ok y := by
  have hf := each_spec h
  obtain ⟨hk, hxk⟩ := List.getElem?_eq_some_iff.1 hx
  have hk' : k < r.length := by rw [← hf.length_eq]; exact hk
  have := (List.forall₂_iff_get.1 hf).2 k hk hk'
  simp only [List.get_eq_getElem] at this
  rw [hxk] at this
  exact ⟨_, List.getElem?_eq_getElem hk', this⟩

theorem getElem?_flatMap_range {α : Type} {w : Nat} {f : Nat → List α}
    (hf : ∀ y, (f y).length = w) : ∀ {h y x : Nat}, y < h → x < w →
    ((List.range h).flatMap f)[y * w + x]? = (f y)[x]? := by
  intro h
  induction h with
  | zero => intro y x hy; omega
  | succ h ih =>
    intro y x hy hx
    have hl : ((List.range h).flatMap f).length = w * h := by
      rw [flatMap_length (n := w) (fun z _ => hf z), List.length_range]
    rw [List.range_succ, List.flatMap_append]
    rcases Nat.lt_or_ge y h with h1 | h1
    · rw [List.getElem?_append_left (by rw [hl]; exact index_lt hx h1)]
      exact ih h1 hx
    · have : y = h := by omega
      subst this
      rw [List.getElem?_append_right (by rw [hl, Nat.mul_comm]; omega), hl]
      have : y * w + x - w * y = x := by rw [Nat.mul_comm]; omega
      rw [this]
      simp

theorem coords_get {w h x y : Nat} (hx : x < w) (hy : y < h) :
    (coords w h)[y * w + x]? = some (x, y) := by
  unfold coords
  rw [getElem?_flatMap_range (fun z => by simp) hy hx]
  simp [hx]

/-- The bytes that are written, from the images of colours and directions. -/
theorem emit_ok {unit : Col → Col} {aw ah ow oh : Nat} (hw : 0 < aw) (hh : 0 < ah)
    {col dir : List Px} (hc : col.length = aw * ah) (hd : dir.length = aw * ah)
    (hb : ∀ ch, AllBetween ch 0 255 col) :
    ∃ r, emit unit aw ah ow oh col dir = .ok r ∧ r.Sized (ow * oh) ∧
      ∀ p ∈ coords ow oh, ∃ q y, col[sampleIndex aw ah ow oh p]? = some q ∧
        r.grey[p.2 * ow + p.1]? = some y ∧
        y = UInt8.ofNat (max (max (q.col 0).floor.toNat (q.col 1).floor.toNat) (q.col 2).floor.toNat) ∧
        ∀ ch : Fin 3, r.rgb[3 * (p.2 * ow + p.1) + ch]? =
          some (UInt8.ofNat (q.col ch).floor.toNat) := by
  have hbody : ∀ p ∈ coords ow oh, ∃ q d, col[sampleIndex aw ah ow oh p]? = some q ∧ (do
      let c ← pixel col (sampleIndex aw ah ow oh p)
      let r ← toByte (c.col 0)
      let g ← toByte (c.col 1)
      let b ← toByte (c.col 2)
      let y ← greyOf c.col
      let d ← pixel dir (sampleIndex aw ah ow oh p)
      let t := unit d.col
      pure (y, [r, g, b], [dirByte (t 0), dirByte (t 1), dirByte (t 2)])) =
      Outcome.ok (UInt8.ofNat (max (max (q.col 0).floor.toNat (q.col 1).floor.toNat)
        (q.col 2).floor.toNat), [UInt8.ofNat (q.col 0).floor.toNat,
        UInt8.ofNat (q.col 1).floor.toNat, UInt8.ofNat (q.col 2).floor.toNat], d) ∧
      d.length = 3 := by
    intro p hp
    have hi := sampleIndex_lt hw hh hp
    have h1 := pixel_ok (img := col) (i := sampleIndex aw ah ow oh p) (by omega)
    have h2 := pixel_ok (img := dir) (i := sampleIndex aw ah ow oh p) (by omega)
    generalize col[sampleIndex aw ah ow oh p]'(by omega) = q at h1
    have hq := pixel_some h1
    have hqm := List.mem_of_getElem? hq
    have hqb : ∀ ch, 0 ≤ q.col ch ∧ q.col ch ≤ 255 := fun ch => hb ch q hqm
    generalize dir[sampleIndex aw ah ow oh p]'(by omega) = e at h2
    refine ⟨q, [dirByte (unit e.col 0), dirByte (unit e.col 1), dirByte (unit e.col 2)], hq, ?_, rfl⟩
    rw [h1, h2]
    simp only [Outcome.ok_bind, (toByte_ok (hqb 0).1 (hqb 0).2).1,
      (toByte_ok (hqb 1).1 (hqb 1).2).1, (toByte_ok (hqb 2).1 (hqb 2).2).1, greyOf_ok hqb,
      Outcome.pure_eq]
  obtain ⟨l, hl⟩ := each_exists (l := coords ow oh) (fun p hp => by
    obtain ⟨q, d, _, h, _⟩ := hbody p hp
    exact ⟨_, h⟩)
  have hlen := each_length hl
  rw [coords_length] at hlen
  have hthree : ∀ e ∈ l, e.2.1.length = 3 ∧ e.2.2.length = 3 := by
    intro e he
    obtain ⟨p, hp, hpe⟩ := each_mem hl he
    obtain ⟨q, d, _, h, hd3⟩ := hbody p hp
    rw [h, Outcome.ok.injEq] at hpe
    subst hpe
    exact ⟨rfl, hd3⟩
  refine ⟨⟨l.map fun e => e.1, l.flatMap fun e => e.2.1, l.flatMap fun e => e.2.2⟩, ?_, ?_, ?_⟩
  · unfold emit
    rw [hl]
    rfl
  · refine ⟨by simp [hlen], ?_, ?_⟩
    · rw [flatMap_length (n := 3) (fun e he => (hthree e he).1), hlen]
    · rw [flatMap_length (n := 3) (fun e he => (hthree e he).2), hlen]
  · intro p hp
    obtain ⟨q, d, hq, h, _⟩ := hbody p hp
    obtain ⟨hx, hy⟩ := mem_coords.1 hp
    obtain ⟨e, he, hpe⟩ := each_get hl (coords_get hx hy)
    rw [h, Outcome.ok.injEq] at hpe
    subst hpe
    refine ⟨q, _, hq, by simp [he], rfl, ?_⟩
    intro ch
    rw [flatMap_three (fun e he => (hthree e he).1) he ch ch.isLt]
    fin_cases ch <;> rfl

/-- What the treatment of a lightmap gives, whatever its options are. -/
structure Written (k : ImgCfg) (col : List Px) (ow oh : Nat) (r : Image) : Prop where
  /-- There is one greyscale byte and there are three bytes for the colour and the direction
  of each sample. -/
  sized : r.Sized (ow * oh)
  /-- The greyscale byte is the largest one of the colour. -/
  grey : ∀ (i : Nat) (y : UInt8), r.grey[i]? = some y → ∃ a b c : UInt8,
    r.rgb[3 * i]? = some a ∧ r.rgb[3 * i + 1]? = some b ∧ r.rgb[3 * i + 2]? = some c ∧
    y.toNat = max (max a.toNat b.toNat) c.toNat
  /-- No sample is darker or brighter than all the computed samples that count. -/
  between : ∀ (ch : Fin 3) (lo hi : ℚ),
    (∀ p, Counts (withSeams k col) p → lo ≤ p.col ch ∧ p.col ch ≤ hi) →
    ∀ (i : Nat) (v : UInt8), r.rgb[3 * i + ch]? = some v →
      lo.floor.toNat ≤ v.toNat ∧ v.toNat ≤ hi.floor.toNat

theorem highlight_between {col : List Px} (hb : ∀ ch, AllBetween ch 0 255 col) :
    ∀ ch, AllBetween ch 0 255 (highlight col) := by
  intro ch p hp
  unfold highlight at hp
  obtain ⟨q, hq, rfl⟩ := List.mem_map.1 hp
  split
  · exact hb ch q hq
  · fin_cases ch <;> norm_num

/-- The stages of the treatment. -/
theorem writeSingle_stages {k : ImgCfg} {n aw ah ow oh : Nat} {col dir : List Px}
    (he : 1 ≤ k.extra) (hw : 0 < aw) (hh : 0 < ah)
    (hc : col.length = (aw * k.extra) * (ah * k.extra))
    (hd : dir.length = (aw * k.extra) * (ah * k.extra))
    (hb : ∀ p ∈ col, ∀ ch, 0 ≤ p.col ch ∧ p.col ch ≤ 255) (hn : col.length < n) :
    ∃ full soft small d r,
      flood (aw * k.extra) (ah * k.extra) n (withSeams k col) = some (.ok full) ∧
      Filled (withSeams k col) full ∧
      (if k.soft > 0 then blur (aw * k.extra) (ah * k.extra) k.soft.toNat full
        else pure full) = .ok soft ∧
      (∀ c lo hi, AllBetween c lo hi full → AllBetween c lo hi soft) ∧
      soft.length = (aw * k.extra) * (ah * k.extra) ∧
      downsample (aw * k.extra) (ah * k.extra) k.extra soft = .ok small ∧
      (∀ c lo hi, AllBetween c lo hi soft → AllBetween c lo hi small) ∧
      small.length = aw * ah ∧ d.length = aw * ah ∧
      (∀ ch, AllBetween ch 0 255 small) ∧
      emit k.unit aw ah ow oh small d = .ok r ∧
      writeSingle k n aw ah ow oh col dir = some (.ok r) := by
  have hsl : (withSeams k col).length = col.length := by
    unfold withSeams highlight; split <;> simp
  have hsb : ∀ ch, AllBetween ch 0 255 (withSeams k col) := by
    unfold withSeams
    split
    · exact highlight_between (fun ch p hp => hb p hp ch)
    · exact fun ch p hp => hb p hp ch
  obtain ⟨full, hf, hfill⟩ := flood_fills (w := aw * k.extra) (h := ah * k.extra)
    (img := withSeams k col) (by rw [hsl, hc]) (n := n)
    (lt_of_le_of_lt (le_trans (hidden_le_length _) (le_of_eq hsl)) hn)
  have hfl : full.length = (aw * k.extra) * (ah * k.extra) := by rw [hfill.length, hsl, hc]
  have hsoft : ∃ soft, (if k.soft > 0 then blur (aw * k.extra) (ah * k.extra) k.soft.toNat full
        else pure full) = .ok soft ∧ soft.length = (aw * k.extra) * (ah * k.extra) ∧
      (∀ c lo hi, AllBetween c lo hi full → AllBetween c lo hi soft) := by
    split
    · exact blur_ok hfl
    · exact ⟨full, rfl, hfl, fun _ _ _ h => h⟩
  obtain ⟨soft, hs1, hs2, hs3⟩ := hsoft
  obtain ⟨small, hm1, hm2, hm3⟩ := downsample_ok he hs2
  obtain ⟨d, hd1, hd2, _⟩ := downsample_ok he hd
  have hfb : ∀ ch, AllBetween ch 0 255 small := fun ch =>
    hm3 ch _ _ (hs3 ch _ _ (filled_all hfill (fun p hp => hsb ch p hp.1)))
  obtain ⟨r, hr, _⟩ := emit_ok (unit := k.unit) (ow := ow) (oh := oh) hw hh hm2 hd2 hfb
  refine ⟨full, soft, small, d, r, hf, hfill, hs1, hs3, hs2, hm1, hm3, hm2, hd2, hfb, hr, ?_⟩
  unfold writeSingle
  simp only
  unfold withSeams at hf
  rw [hf]
  by_cases hk : k.soft > 0
  · rw [if_pos hk] at hs1
    simp only [Outcome.ok_bind, if_pos hk, hs1, hm1, hd1, hr]
  · rw [if_neg hk] at hs1
    simp only [Outcome.pure_eq, Outcome.ok.injEq] at hs1
    subst hs1
    simp only [Outcome.ok_bind, if_neg hk, Outcome.pure_eq, hm1, hd1, hr]

/-- **C116.** A lightmap whose samples are between 0 and 255 is written without an exception and
without undefined behaviour, with the right number of bytes; the greyscale is the maximum of
the colour; and no byte leaves the range of the samples. -/
theorem lightmap_written {k : ImgCfg} {n aw ah ow oh : Nat} {col dir : List Px}
    (he : 1 ≤ k.extra) (hw : 0 < aw) (hh : 0 < ah)
    (hc : col.length = (aw * k.extra) * (ah * k.extra))
    (hd : dir.length = (aw * k.extra) * (ah * k.extra))
    (hb : ∀ p ∈ col, ∀ ch, 0 ≤ p.col ch ∧ p.col ch ≤ 255) (hn : col.length < n) :
    ∃ r, writeSingle k n aw ah ow oh col dir = some (.ok r) ∧ Written k col ow oh r := by
  obtain ⟨full, soft, small, d, r, _, hfill, _, hs3, _, _, hm3, hm2, hd2, hfb, hr, hwr⟩ :=
    writeSingle_stages (ow := ow) (oh := oh) he hw hh hc hd hb hn
  obtain ⟨r', hr', hsz, hbytes⟩ := emit_ok (unit := k.unit) (ow := ow) (oh := oh) hw hh hm2 hd2 hfb
  rw [hr, Outcome.ok.injEq] at hr'
  subst hr'
  have pos : ∀ i, i < ow * oh → ∃ p ∈ coords ow oh, i = p.2 * ow + p.1 := by
    intro i hi
    obtain ⟨x, y, hx, hy, rfl⟩ := exists_coords hi
    exact ⟨(x, y), mem_coords.2 ⟨hx, hy⟩, rfl⟩
  refine ⟨r, hwr, hsz, ?_, ?_⟩
  · intro i y hy
    have hi : i < ow * oh := by
      rw [← hsz.1]; exact (List.getElem?_eq_some_iff.1 hy).1
    obtain ⟨p, hp, rfl⟩ := pos i hi
    obtain ⟨q, y', hq, hy', hyv, hrgb⟩ := hbytes p hp
    rw [hy, Option.some.injEq] at hy'
    have hqb : ∀ ch, 0 ≤ q.col ch ∧ q.col ch ≤ 255 :=
      fun ch => hfb ch q (List.mem_of_getElem? hq)
    refine ⟨_, _, _, hrgb 0, hrgb 1, hrgb 2, ?_⟩
    rw [(toByte_ok (hqb 0).1 (hqb 0).2).2, (toByte_ok (hqb 1).1 (hqb 1).2).2,
      (toByte_ok (hqb 2).1 (hqb 2).2).2, hy', hyv, UInt8.toNat_ofNat']
    have h0 := floor_toNat_lt (hqb 0).2
    have h1 := floor_toNat_lt (hqb 1).2
    have h2 := floor_toNat_lt (hqb 2).2
    omega
  · intro ch lo hi hcb i v hv
    have hi' : i < ow * oh := by
      have h1 := (List.getElem?_eq_some_iff.1 hv).1
      rw [hsz.2.1] at h1
      omega
    obtain ⟨p, hp, rfl⟩ := pos i hi'
    obtain ⟨q, _, hq, _, _, hrgb⟩ := hbytes p hp
    have hqm := List.mem_of_getElem? hq
    have hqb : 0 ≤ q.col ch ∧ q.col ch ≤ 255 := hfb ch q hqm
    rw [hrgb ch, Option.some.injEq] at hv
    rw [← hv, (toByte_ok hqb.1 hqb.2).2]
    have := hm3 ch _ _ (hs3 ch _ _ (filled_all hfill hcb)) q hqm
    exact ⟨floor_mono this.1, floor_mono this.2⟩

/-! ### Locality -/

theorem filter_local {img : List Px} {k : Nat × Nat → List Nat} {cs : List (Nat × Nat)}
    {r : List Px} (hr : each (fun p => do
        let ns ← each (pixel img) (k p)
        pure (weigh ns)) cs = .ok r) {j : Nat} {p : Nat × Nat} (hp : cs[j]? = some p)
    (hne : k p ≠ []) {q : Px} (hq : r[j]? = some q) {ch : Fin 3} {lo hi : ℚ}
    (hb : ∀ i ∈ k p, ∀ x, img[i]? = some x → lo ≤ x.col ch ∧ x.col ch ≤ hi) :
    lo ≤ q.col ch ∧ q.col ch ≤ hi := by
  obtain ⟨q', hq', hf⟩ := each_get hr hp
  rw [hq, Option.some.injEq] at hq'
  subst hq'
  obtain ⟨ns, hns, h⟩ := Outcome.bind_eq_ok.1 hf
  simp only [Outcome.pure_eq, Outcome.ok.injEq] at h
  subst h
  refine weigh_between ?_ ?_
  · have := each_length hns
    intro h0
    rw [h0] at this
    exact hne (List.length_eq_zero_iff.1 this.symm)
  · intro x hx
    obtain ⟨i, hi, hix⟩ := each_mem hns hx
    exact hb i hi x (pixel_some hix)

/-- The samples around the place `(x, y)` of the lightmap: the square of `e` times `e` samples
that belong to it, and what is at most `r` samples away from that. -/
def Near (e r x y a b : Nat) : Prop :=
  x * e ≤ a + r ∧ a < x * e + e + r ∧ y * e ≤ b + r ∧ b < y * e + e + r

/-- **C117.** The colour at a place of the lightmap depends only on the samples around it: if
these are visible and between two bounds, then so is the colour that is written, apart from the
fraction.  In particular, without `-soft` and `-extra` the bytes of a visible sample are its
colour. -/
theorem lightmap_local {k : ImgCfg} {n aw ah ow oh : Nat} {col dir : List Px}
    (he : 1 ≤ k.extra) (hw : 0 < aw) (hh : 0 < ah)
    (hc : col.length = (aw * k.extra) * (ah * k.extra))
    (hd : dir.length = (aw * k.extra) * (ah * k.extra))
    (hb : ∀ p ∈ col, ∀ ch, 0 ≤ p.col ch ∧ p.col ch ≤ 255) (hn : col.length < n)
    {s t : Nat} (hs : s < ow) (ht : t < oh) {ch : Fin 3} {lo hi : ℚ}
    (hnear : ∀ a b, a < aw * k.extra → b < ah * k.extra →
      Near k.extra k.soft.toNat (s * aw / ow) (t * ah / oh) a b →
      ∃ p, (withSeams k col)[b * (aw * k.extra) + a]? = some p ∧ p.a = true ∧
        lo ≤ p.col ch ∧ p.col ch ≤ hi) :
    ∃ r v, writeSingle k n aw ah ow oh col dir = some (.ok r) ∧
      r.rgb[3 * (t * ow + s) + ch]? = some v ∧
      lo.floor.toNat ≤ v.toNat ∧ v.toNat ≤ hi.floor.toNat := by
  obtain ⟨full, soft, small, d, r, _, hfill, hsoft, _, hsl, hsmall, _, hm2, hd2, hfb, hr, hwr⟩ :=
    writeSingle_stages (ow := ow) (oh := oh) he hw hh hc hd hb hn
  obtain ⟨r', hr', hsz, hbytes⟩ := emit_ok (unit := k.unit) (ow := ow) (oh := oh) hw hh hm2 hd2 hfb
  rw [hr, Outcome.ok.injEq] at hr'
  subst hr'
  obtain ⟨q, _, hq, _, _, hrgb⟩ := hbytes (s, t) (mem_coords.2 ⟨hs, ht⟩)
  refine ⟨r, _, hwr, hrgb ch, ?_⟩
  have hqb : 0 ≤ q.col ch ∧ q.col ch ≤ 255 := hfb ch q (List.mem_of_getElem? hq)
  rw [(toByte_ok hqb.1 hqb.2).2]
  suffices h : lo ≤ q.col ch ∧ q.col ch ≤ hi from ⟨floor_mono h.1, floor_mono h.2⟩
  have hx : s * aw / ow < aw := by
    rw [Nat.div_lt_iff_lt_mul (by omega), Nat.mul_comm aw]
    exact (Nat.mul_lt_mul_right hw).2 hs
  have hy : t * ah / oh < ah := by
    rw [Nat.div_lt_iff_lt_mul (by omega), Nat.mul_comm ah]
    exact (Nat.mul_lt_mul_right hh).2 ht
  unfold sampleIndex at hq
  simp only at hq
  generalize s * aw / ow = x at *
  generalize t * ah / oh = y at *
  have hnearF : ∀ a b, a < aw * k.extra → b < ah * k.extra →
      Near k.extra k.soft.toNat x y a b → ∀ p, full[b * (aw * k.extra) + a]? = some p →
        lo ≤ p.col ch ∧ p.col ch ≤ hi := by
    intro a b ha hb' hab p hp
    obtain ⟨p', hp', hpa, hpb⟩ := hnear a b ha hb' hab
    have := hfill.keeps _ _ hp' hpa
    rw [hp, Option.some.injEq] at this
    rw [this]
    exact hpb
  -- the blurred samples of the square
  have hsq : ∀ a b, a < aw * k.extra → b < ah * k.extra → Near k.extra 0 x y a b →
      ∀ p, soft[b * (aw * k.extra) + a]? = some p → lo ≤ p.col ch ∧ p.col ch ≤ hi := by
    intro a b ha hb' hab p hp
    unfold Near at hab
    split at hsoft
    · unfold blur at hsoft
      refine filter_local hsoft (coords_get ha hb') ?_ hp ?_
      · apply List.ne_nil_of_mem
          (a := clampTo (ah * k.extra) (b + 0) * (aw * k.extra) + clampTo (aw * k.extra) (a + 0))
        unfold box
        simp only [List.mem_flatMap, List.mem_map]
        exact ⟨0, spread_ne _, 0, spread_ne _, rfl⟩
      · intro i hi' z hz
        unfold box at hi'
        simp only [List.mem_flatMap, List.mem_map] at hi'
        obtain ⟨y0, hy0, x0, hx0, rfl⟩ := hi'
        unfold spread at hy0 hx0
        simp only [List.mem_map, List.mem_range] at hy0 hx0
        obtain ⟨y1, hy1, rfl⟩ := hy0
        obtain ⟨x1, hx1, rfl⟩ := hx0
        refine hnearF _ _ (clampTo_lt (by omega) _) (clampTo_lt (by omega) _) ?_ z hz
        unfold Near clampTo
        omega
    · simp only [Outcome.pure_eq, Outcome.ok.injEq] at hsoft
      subst hsoft
      exact hnearF a b ha hb' (by unfold Near; omega) p hp
  unfold downsample at hsmall
  rw [if_neg (by omega)] at hsmall
  have hxe : x * k.extra + k.extra ≤ aw * k.extra := by
    rw [← Nat.succ_mul]; exact Nat.mul_le_mul_right _ hx
  have hye : y * k.extra + k.extra ≤ ah * k.extra := by
    rw [← Nat.succ_mul]; exact Nat.mul_le_mul_right _ hy
  split at hsmall
  · rename_i h1
    simp only [Outcome.ok.injEq] at hsmall
    subst hsmall
    refine hsq x y (by rw [h1]; omega) (by rw [h1]; omega) (by unfold Near; rw [h1]; omega) q ?_
    rw [h1, Nat.mul_one]
    exact hq
  · have hwe : aw * k.extra / k.extra = aw := Nat.mul_div_cancel _ (by omega)
    have hhe : ah * k.extra / k.extra = ah := Nat.mul_div_cancel _ (by omega)
    rw [hwe, hhe] at hsmall
    refine filter_local hsmall (coords_get hx hy)
      (block_ne (by omega) (by rw [hwe]; exact hx) (by rw [hhe]; exact hy)) hq ?_
    intro i hi' z hz
    unfold block at hi'
    simp only [List.mem_flatMap, List.mem_filterMap, List.mem_range] at hi'
    obtain ⟨y0, hy0, x0, hx0, hcell⟩ := hi'
    obtain ⟨a, b, ha, hb', haw, hbh, rfl⟩ := cell_eq hcell
    refine hsq a b haw hbh ?_ z hz
    have ha : x * k.extra + x0 = a := by exact_mod_cast ha
    have hb' : y * k.extra + y0 = b := by exact_mod_cast hb'
    unfold Near
    omega

end Verif.Light
