import Verif.VisCull.Lemmas

/-! **C226.** Lights that `light` skips because of the visibility in the file. -/

namespace Verif.VisCull

open Spec

variable {b : Bsp} {world : Bool} {face : Nat} {points leaves : List Nat} {pvs : List UInt8}

/-- With a row in the file, what a leaf that is not liquid shows is what it sees. -/
theorem shows_of_sees {rows : Rows} (hr : decompressAll b = .ok rows) {n m i : Nat} {row : List UInt8} (h : RowOf b n row) (_ : BitOf b m i)
    (hb : Bit row i) : Shows b rows n i := by
  obtain ⟨rows', g1, g2⟩ := decompressAll_ok b
  rw [hr] at g1
  cases g1
  obtain ⟨-, -, before, after, -, l, hl, -⟩ := id h
  exact ⟨l, hl, .inr (.inr ⟨row, (g2 n l hl).1 row h, hb⟩)⟩

theorem bits_ne {n : Nat} {row : List UInt8} (h : RowOf b n row) : b.bits ≠ [] := by
  obtain ⟨-, hne, before, after, hb, -⟩ := h
  intro h0
  rw [h0] at hb
  have : VisRow.compressRow row = [] := by
    have := congrArg List.length hb
    simp at this
    exact List.eq_nil_of_length_eq_zero (by omega)
  cases row with
  | nil => exact hne rfl
  | cons x xs =>
    unfold VisRow.compressRow at this
    split at this <;> simp at this

theorem pvs_bit (hf : Face b world face points leaves pvs) {n m : Nat} (hn : Touches b world face points n) (hs : Sees b n m) :
    ∃ i, BitOf b m i ∧ Bit pvs i := by
  obtain ⟨row, i, h1, h2, h3⟩ := hs
  obtain ⟨rows, hr, -, -, hbit⟩ := face_spec (bits_ne h1) hf
  exact ⟨i, h2, (hbit i (bitOf_lt h2)).2 ⟨n, hn, shows_of_sees hr h1 h2 h3⟩⟩

/-- **C226.** A light in a leaf that a leaf of the face sees is not skipped. -/
theorem entity_kept (hf : Face b world face points leaves pvs) {n m : Nat} (hn : Touches b world face points n) (hs : Sees b n m)
    (vis masks : Bool) : skipsEntity vis masks b pvs (some m) = .ok false := by
  obtain ⟨i, h1, h2⟩ := pvs_bit hf hn hs
  unfold skipsEntity
  split
  · exact visCull_of_bit h1 h2
  · rfl

/-- **C226.** In liquid the light passes: for a face in a liquid no light with a bit in the rows is skipped. -/
theorem liquid_kept (hb : b.bits ≠ []) (hf : Face b world face points leaves pvs) {n m i : Nat} (hn : Touches b world face points n)
    {l : Leaf} (hl : b.leafs[n]? = some l) (hq : l.liquid = true) (hm : BitOf b m i) (vis masks : Bool) :
    skipsEntity vis masks b pvs (some m) = .ok false := by
  obtain ⟨rows, -, -, -, hbit⟩ := face_spec hb hf
  unfold skipsEntity
  split
  · exact visCull_of_bit hm ((hbit i (bitOf_lt hm)).2 ⟨n, hn, l, hl, .inl hq⟩)
  · rfl

/-- **C226.** If all leafs of the face have rows and none is liquid, a light that is in a plain leaf is skipped exactly if no leaf of the
face sees it. -/
theorem entity_skipped_iff (hb : b.bits ≠ []) (hz : visSize b ≠ 0) (hf : Face b world face points leaves pvs)
    (hrow : ∀ n, Touches b world face points n → (∃ row, RowOf b n row) ∧ ∀ l, b.leafs[n]? = some l → l.liquid = false) {m : Nat}
    (hm : Plain b m) : skipsEntity true true b pvs (some m) = .ok true ↔ ¬ ∃ n, Touches b world face points n ∧ Sees b n m := by
  obtain ⟨rows, hr, -, hlen, hbit⟩ := face_spec hb hf
  obtain ⟨rows', g1, g2⟩ := decompressAll_ok b
  rw [hr] at g1
  cases g1
  obtain ⟨v, hv, hiff⟩ := visCull_plain (pvs := pvs) (by intro h0; rw [h0] at hlen; exact hz hlen.symm) hlen hm
  have : skipsEntity true true b pvs (some m) = .ok v := hv
  rw [this, Outcome.ok.injEq, hiff, not_iff_not]
  constructor
  · rintro ⟨i, h1, h2⟩
    obtain ⟨n, hn, l, hl, h3⟩ := (hbit i (bitOf_lt h1)).1 h2
    obtain ⟨⟨row, hro⟩, hq⟩ := hrow n hn
    have hfr := (g2 n l hl).1 row hro
    refine ⟨n, hn, row, i, hro, h1, ?_⟩
    rcases h3 with h3 | h3 | ⟨r, h3, h4⟩
    · rw [hq l hl] at h3
      cases h3
    · rw [hfr] at h3
      cases h3
    · rw [hfr] at h3
      cases h3
      exact h4
  · rintro ⟨n, hn, row, i, h1, h2, h3⟩
    exact ⟨i, h2, (hbit i (bitOf_lt h2)).2 ⟨n, hn, shows_of_sees hr h1 h2 h3⟩⟩

/-- **C226.** Without visibility in the file, without `vis`, for a light with other channels, outside of all leafs, or in a
solid, sky or liquid leaf, nothing is skipped. -/
theorem never_skipped (leaf : Option Nat) (vis masks : Bool) (h : vis = false ∨ masks = false ∨ pvs = [] ∨ leaf = none ∨
      ∃ n l, leaf = some n ∧ b.leafs[n]? = some l ∧ (l.solid = true ∨ l.sky = true ∨ l.liquid = true)) :
    skipsEntity vis masks b pvs leaf = .ok false := by
  unfold skipsEntity
  rcases h with rfl | rfl | rfl | rfl | ⟨n, l, rfl, hl, h⟩
  · rfl
  · cases vis <;> rfl
  · cases vis <;> cases masks <;> rfl
  · split
    · unfold visCull
      split <;> rfl
    · rfl
  · split
    · unfold visCull
      split
      · rfl
      · have hc : (l.solid || l.sky || l.liquid) = true := by rcases h with h | h | h <;> simp [h]
        simp only [Outcome.readAt, hl, Outcome.ok_bind, hc, if_true]
    · rfl

/-- A face that gives light is skipped exactly if one of its leafs is not seen; `hno`: the tests do not fail. -/
theorem surface_skipped_iff (em : List Nat) (hno : ∀ m ∈ em, ∃ v, visCull b pvs (some m) = .ok v) :
    skipsSurface true b (some pvs) em = .ok true ↔ ∃ m ∈ em, visCull b pvs (some m) = .ok true := by
  unfold skipsSurface
  dsimp only
  rw [if_pos rfl]
  induction em with
  | nil => simp [anyCulled]
  | cons m em ih =>
    unfold anyCulled
    obtain ⟨v, hv⟩ := hno m List.mem_cons_self
    rw [hv, Outcome.ok_bind]
    cases v with
    | true => simp [hv]
    | false =>
      simp only [Bool.false_eq_true, if_false]
      rw [ih (fun k hk => hno k (List.mem_cons_of_mem _ hk))]
      constructor
      · rintro ⟨k, hk, h⟩
        exact ⟨k, List.mem_cons_of_mem _ hk, h⟩
      · rintro ⟨k, hk, h⟩
        rcases List.mem_cons.1 hk with rfl | hk
        · rw [hv] at h
          cases h
        · exact ⟨k, hk, h⟩

/-- **C226**, in part: a face that gives light is not skipped if all of its leafs are seen. It should be enough that one of them is, but it
is not (`surface_dropped`). -/
theorem surface_kept_partial (hf : Face b world face points leaves pvs) (em : List Nat)
    (h : ∀ m ∈ em, ∃ n, Touches b world face points n ∧ Sees b n m) (vis : Bool) : skipsSurface vis b (some pvs) em = .ok false := by
  unfold skipsSurface
  dsimp only
  split
  · induction em with
    | nil => rfl
    | cons m em ih =>
      obtain ⟨n, hn, hs⟩ := h m List.mem_cons_self
      obtain ⟨i, h1, h2⟩ := pvs_bit hf hn hs
      unfold anyCulled
      rw [visCull_of_bit h1 h2, Outcome.ok_bind]
      simp only [Bool.false_eq_true, if_false]
      exact ih (fun k hk => h k (List.mem_cons_of_mem _ hk))
  · rfl

/-! ### A map -/

/-- A solid leaf and two leafs that see only themselves. Face 0 is in the first of them, face 1 in both. -/
def exBsp : Bsp :=
  ⟨false, 2, [], [1, 2], [⟨-1, 0, 0, 0, true, false, false⟩, ⟨0, 0, 0, 2, false, false, false⟩, ⟨1, 0, 2, 1, false, false, false⟩], [0, 1, 1]⟩

theorem exFace0 : Face exBsp true 0 [] [1] [1] := ⟨[(0, [1]), (1, [2])], by decide +kernel, by decide +kernel⟩

theorem exFace1 : Face exBsp true 1 [] [1, 2] [3] := ⟨[(0, [1]), (1, [2])], by decide +kernel, by decide +kernel⟩

theorem exSees : Sees exBsp 1 1 :=
  ⟨[1], 0, ⟨by decide, by decide, [], [2], by decide +kernel, _, rfl, rfl⟩, ⟨_, rfl, rfl, by decide⟩, 1, rfl, by decide⟩

theorem exTouches : Touches exBsp true 0 [] 1 := ⟨_, rfl, 0, by decide, by decide, rfl⟩

/-- A face that gives light is skipped although a leaf that it is in is seen, here even the leaf that the lit face is in: it is also in a
leaf that is not seen. -/
theorem surface_dropped : ∃ (b : Bsp) (face : Nat) (leaves em : List Nat) (pvs pvs' : List UInt8) (n m other : Nat),
    Face b true face [] leaves pvs ∧ Face b true other [] em pvs' ∧ Touches b true face [] n ∧ m ∈ em ∧ Sees b n m ∧ Plain b m ∧
      skipsSurface true b (some pvs) em = .ok true :=
  ⟨exBsp, 0, [1], [1, 2], [1], [3], 1, 1, 1, exFace0, exFace1, exTouches, by decide, exSees, ⟨_, rfl, rfl, rfl, rfl⟩, by decide +kernel⟩

/-! ### Examples -/

example : skipsEntity true true exBsp [1] (some 1) = .ok false := entity_kept exFace0 exTouches exSees _ _

example : skipsEntity true true exBsp [1] (some 2) = .ok true := by decide +kernel

example : exBsp.bits ≠ [] ∧ visSize exBsp ≠ 0 ∧ Plain exBsp 2 := ⟨by decide, by decide, _, rfl, rfl, rfl, rfl⟩

example : ∀ n, Touches exBsp true 0 [] n → (∃ row, RowOf exBsp n row) ∧ ∀ l, exBsp.leafs[n]? = some l → l.liquid = false := by
  intro n h
  have hn : n = 1 := by
    obtain ⟨rows, -, hm, -⟩ := face_spec (by decide) exFace0
    simpa using (hm n).2 h
  subst hn
  exact ⟨⟨[1], by decide, by decide, [], [2], by decide +kernel, _, rfl, rfl⟩, fun l hl => by cases hl; rfl⟩

example : skipsSurface true exBsp (some [1]) [1] = .ok false :=
  surface_kept_partial exFace0 [1] (fun m hm => ⟨1, exTouches, by simp only [List.mem_singleton] at hm; subst hm; exact exSees⟩) true

/-- In Quake II, with a liquid leaf. -/
example : ∃ pvs, Face ⟨true, 0, [0, 1], [1, 2], [⟨0, 0, 0, 0, false, false, true⟩, ⟨0, 1, 0, 0, false, false, false⟩], []⟩ false 0 [0] [0] pvs ∧
    BitOf ⟨true, 0, [0, 1], [1, 2], [⟨0, 0, 0, 0, false, false, true⟩, ⟨0, 1, 0, 0, false, false, false⟩], []⟩ 1 1 :=
  ⟨[255], ⟨[(0, [1]), (1, [2])], by decide +kernel, by decide +kernel⟩, _, rfl, rfl, 1, rfl, by decide, by decide⟩

end Verif.VisCull
