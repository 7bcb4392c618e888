import Verif.Vis.Rows
import Verif.VisRow.Props

namespace Verif.Vis.Rows

open Verif Outcome

theorem nthBit_toNat (k : Nat) (h : k < 8) : (nthBit k).toNat = 2 ^ k := by
  have : 2 ^ k < 256 := by
    calc 2 ^ k < 2 ^ 8 := Nat.pow_lt_pow_right (by decide) h
      _ = 256 := by decide
  simp [nthBit, Nat.mod_eq_of_lt this]

theorem bitAt_set (row : List UInt8) (i k : Nat) (x : UInt8) (h : row[i / 8]? = some x) :
    bitAt (row.set (i / 8) (x ||| nthBit (i % 8))) k = (bitAt row k || decide (k = i)) := by
  have hlt := (List.getElem?_eq_some_iff.1 h).1
  unfold bitAt
  rw [List.getElem?_set]
  by_cases hk : i / 8 = k / 8
  · rw [if_pos hk, ← hk, h]
    simp only [hlt, ↓reduceIte]
    rw [UInt8.toNat_or, Nat.testBit_or, nthBit_toNat _ (Nat.mod_lt _ (by decide)), Nat.testBit_two_pow]
    congr 1
    have : i % 8 = k % 8 ↔ k = i := by omega
    simp [this]
  · rw [if_neg hk]
    have : k ≠ i := fun e => hk (by rw [e])
    simp [this]

theorem expand_spec (see : Nat → Outcome Bool) (f : Nat → Bool) (todo i : Nat) (row : List UInt8)
    (hs : ∀ k, i ≤ k → k < i + todo → see k = .ok (f k)) (hl : i + todo ≤ 8 * row.length) :
    ∃ row', expand see todo i row = .ok row' ∧ row'.length = row.length ∧
      ∀ k, bitAt row' k = (bitAt row k || (decide (i ≤ k ∧ k < i + todo) && f k)) := by
  induction todo generalizing i row with
  | zero =>
    refine ⟨row, rfl, rfl, fun k => ?_⟩
    have : decide (i ≤ k ∧ k < i + 0) = false := by simp
    rw [this]; simp
  | succ todo ih =>
    unfold expand
    rw [hs i (Nat.le_refl _) (by omega), ok_bind]
    cases hf : f i
    · simp only [Bool.false_eq_true, ↓reduceIte]
      obtain ⟨row', e, h1, h2⟩ := ih (i + 1) row (fun k a b => hs k (by omega) (by omega)) (by omega)
      refine ⟨row', e, h1, fun k => ?_⟩
      rw [h2 k]
      by_cases hk : k = i
      · subst hk
        simp [hf, show ¬ (k + 1 ≤ k) by omega]
      · have : (i + 1 ≤ k ∧ k < i + 1 + todo) ↔ (i ≤ k ∧ k < i + (todo + 1)) := by omega
        simp only [this]
    · simp only [↓reduceIte]
      have hlt : i / 8 < row.length := by omega
      have hx : row[i / 8]? = some row[i / 8] := List.getElem?_eq_getElem hlt
      simp only [readAt, hx, ok_bind, writeAt, hlt, ↓reduceIte]
      obtain ⟨row', e, h1, h2⟩ := ih (i + 1) (row.set (i / 8) (row[i / 8] ||| nthBit (i % 8)))
        (fun k a b => hs k (by omega) (by omega)) (by simp; omega)
      refine ⟨row', e, by simpa using h1, fun k => ?_⟩
      rw [h2 k, bitAt_set row i k _ hx]
      by_cases hk : k = i
      · subst hk
        have : k ≤ k ∧ k < k + (todo + 1) := by omega
        simp [hf]
      · have : (i + 1 ≤ k ∧ k < i + 1 + todo) ↔ (i ≤ k ∧ k < i + (todo + 1)) := by omega
        simp [this, hk]

theorem collect_spec (ps : List (PStat × (Nat → Bool))) (buf : Nat → Bool)
    (h : ∀ x ∈ ps, x.1 = .done) :
    ∃ b, collect ps buf = .ok b ∧ ∀ L, b L = true ↔ buf L = true ∨ ∃ x ∈ ps, x.2 L = true := by
  induction ps generalizing buf with
  | nil => exact ⟨buf, rfl, by simp⟩
  | cons x ps ih =>
    obtain ⟨st, v⟩ := x
    have hst : st = .done := h (st, v) List.mem_cons_self
    obtain ⟨b, e, hb⟩ := ih (fun L => buf L || v L) (fun x hx => h x (List.mem_cons_of_mem _ hx))
    refine ⟨b, by simp [collect, hst, e], fun L => ?_⟩
    rw [hb L]
    simp [or_assoc]

theorem bitAt_replicate (n k : Nat) : bitAt (List.replicate n 0) k = false := by
  unfold bitAt
  rw [List.getElem?_replicate]
  split
  · rename_i h; split at h
    · cases h; simp
    · cases h
  · rfl

theorem bitAt_take (row : List UInt8) (n k : Nat) :
    bitAt (row.take n) k = (decide (k / 8 < n) && bitAt row k) := by
  unfold bitAt
  rw [List.getElem?_take]
  by_cases h : k / 8 < n <;> simp [h]

/-! ### PHS -/

theorem orLongs_length (w : Nat) (a b : List UInt8) : (orLongs w a b).length = a.length := by
  simp [orLongs]

theorem bitAt_orLongs (w : Nat) (a b : List UInt8) (h : a.length = b.length) (k : Nat) :
    bitAt (orLongs w a b) k =
      (bitAt a k || (decide (k / 8 < a.length / w * w) && bitAt b k)) := by
  unfold bitAt orLongs
  rw [List.getElem?_mapIdx]
  by_cases hk : k / 8 < a.length
  · rw [List.getElem?_eq_getElem hk, List.getElem?_eq_getElem (h ▸ hk)]
    simp only [Option.map_some]
    by_cases hw : k / 8 < a.length / w * w
    · simp [hw, UInt8.toNat_or, Nat.testBit_or]
    · simp [hw]
  · rw [List.getElem?_eq_none (by omega), List.getElem?_eq_none (by omega)]
    simp

/-- The lump holds the rows. -/
def Holds (bits : List UInt8) (pvs : Nat → Nat) (rows : Nat → List UInt8) (n : Nat) : Prop :=
  ∀ c < n, ∃ before after, bits = before ++ VisRow.compressRow (rows c) ++ after ∧
    before.length = pvs c ∧ (rows c).length = (n + 7) / 8

theorem holds_append {bits : List UInt8} {pvs rows n} (h : Holds bits pvs rows n) (x : List UInt8) :
    Holds (bits ++ x) pvs rows n := by
  intro c hc
  obtain ⟨b, a, e, h1, h2⟩ := h c hc
  exact ⟨b, a ++ x, by rw [e]; simp, h1, h2⟩

theorem decompressInto_holds {bits : List UInt8} {pvs rows n} (h : Holds bits pvs rows n) {c : Nat}
    (hc : c < n) (buf : List UInt8) (hb : buf.length = (n + 7) / 8) :
    decompressInto bits (pvs c) buf = .ok (rows c) := by
  obtain ⟨b, a, e, h1, h2⟩ := h c hc
  unfold decompressInto
  rw [e, ← h1, VisRow.pvs_row_consumed b (rows c) a buf (by rw [hb, h2])]
  rfl

theorem phsBits_spec (w n : Nat) (pvs : Nat → Nat) (rows : Nat → List UInt8) (orig : List UInt8)
    (hpad : ∀ i, bitAt orig i = true → i < n) (todo i : Nat) (s : PHSState)
    (hh : Holds s.bits pvs rows n) (hb : s.buf.length = (n + 7) / 8) (hb2 : s.buf2.length = (n + 7) / 8) :
    ∃ s', phsBits w n pvs orig todo i s = .ok s' ∧ s'.bits = s.bits ∧ s'.ofs = s.ofs ∧
      s'.buf.length = (n + 7) / 8 ∧ s'.buf2.length = (n + 7) / 8 ∧
      ∀ k, bitAt s'.buf k = true ↔ bitAt s.buf k = true ∨ (k / 8 < (n + 7) / 8 / w * w ∧
        ∃ j, i ≤ j ∧ j < i + todo ∧ bitAt orig j = true ∧ bitAt (rows j) k = true) := by
  induction todo generalizing i s with
  | zero =>
    refine ⟨s, rfl, rfl, rfl, hb, hb2, fun k => ⟨.inl, ?_⟩⟩
    rintro (h | ⟨_, j, h1, h2, _⟩)
    · exact h
    · omega
  | succ todo ih =>
    unfold phsBits
    cases ho : bitAt orig i
    · simp only [Bool.false_eq_true, ↓reduceIte]
      obtain ⟨s', e, h1, h2, h3, h4, h5⟩ := ih (i + 1) s hh hb hb2
      refine ⟨s', e, h1, h2, h3, h4, fun k => ?_⟩
      rw [h5 k]
      constructor
      · rintro (h | ⟨hk, j, a, b, c, d⟩)
        · exact .inl h
        · exact .inr ⟨hk, j, by omega, by omega, c, d⟩
      · rintro (h | ⟨hk, j, a, b, c, d⟩)
        · exact .inl h
        · have : j ≠ i := by rintro rfl; rw [ho] at c; cases c
          exact .inr ⟨hk, j, by omega, by omega, c, d⟩
    · have hi := hpad i ho
      simp only [↓reduceIte, show ¬ (i ≥ n) by omega]
      rw [decompressInto_holds hh hi _ hb2, ok_bind]
      have hrow : (rows i).length = (n + 7) / 8 := (hh i hi).choose_spec.choose_spec.2.2
      obtain ⟨s', e, h1, h2, h3, h4, h5⟩ := ih (i + 1)
        { s with buf2 := rows i, buf := orLongs w s.buf (rows i) } hh
        (by rw [orLongs_length]; exact hb) hrow
      refine ⟨s', e, h1, h2, h3, h4, fun k => ?_⟩
      rw [h5 k]
      simp only
      rw [bitAt_orLongs w _ _ (by rw [hb, hrow]), hb]
      simp only [Bool.or_eq_true, Bool.and_eq_true, decide_eq_true_eq]
      constructor
      · rintro ((h | ⟨hk, h⟩) | ⟨hk, j, a, b, c, d⟩)
        · exact .inl h
        · exact .inr ⟨hk, i, by omega, by omega, ho, h⟩
        · exact .inr ⟨hk, j, by omega, by omega, c, d⟩
      · rintro (h | ⟨hk, j, a, b, c, d⟩)
        · exact .inl (.inl h)
        · by_cases hj : j = i
          · subst hj; exact .inl (.inr ⟨hk, d⟩)
          · exact .inr ⟨hk, j, by omega, by omega, c, d⟩

/-- What a PHS row must be. -/
def IsPHS (w n : Nat) (rows : Nat → List UInt8) (c : Nat) (row : List UInt8) : Prop :=
  row.length = (n + 7) / 8 ∧ ∀ k, bitAt row k = true ↔ bitAt (rows c) k = true ∨
    (k / 8 < (n + 7) / 8 / w * w ∧ ∃ j < n, bitAt (rows c) j = true ∧ bitAt (rows j) k = true)

theorem phsClusters_spec (w n : Nat) (pvs : Nat → Nat) (rows : Nat → List UInt8)
    (hpad : ∀ c < n, ∀ i, bitAt (rows c) i = true → i < n) (todo c : Nat) (s : PHSState)
    (hc : c + todo = n) (hh : Holds s.bits pvs rows n) (hb : s.buf.length = (n + 7) / 8)
    (hb2 : s.buf2.length = (n + 7) / 8) (hofs : s.ofs.length = c)
    (hdone : ∀ d, d < c → ∃ before row after, s.bits = before ++ VisRow.compressRow row ++ after ∧
      s.ofs[d]? = some before.length ∧ IsPHS w n rows d row) :
    ∃ s', phsClusters w n pvs todo c s = .ok s' ∧ (∃ x, s'.bits = s.bits ++ x) ∧ s'.ofs.length = n ∧
      ∀ d, d < n → ∃ before row after, s'.bits = before ++ VisRow.compressRow row ++ after ∧
      s'.ofs[d]? = some before.length ∧ IsPHS w n rows d row := by
  induction todo generalizing c s with
  | zero =>
    refine ⟨s, rfl, ⟨[], by simp⟩, by omega, fun d hd => hdone d (by omega)⟩
  | succ todo ih =>
    have hcn : c < n := by omega
    unfold phsClusters
    rw [decompressInto_holds hh hcn _ hb, ok_bind]
    have hrow : (rows c).length = (n + 7) / 8 := (hh c hcn).choose_spec.choose_spec.2.2
    obtain ⟨s1, e, h1, h2, h3, h4, h5⟩ := phsBits_spec w n pvs rows (rows c) (hpad c hcn)
      ((rows c).length * 8) 0 { s with buf := rows c } hh hrow hb2
    rw [e, ok_bind]
    simp only at h1 h2
    have hphs : IsPHS w n rows c s1.buf := by
      refine ⟨h3, fun k => ?_⟩
      rw [h5 k]
      simp only
      constructor
      · rintro (h | ⟨hk, j, _, _, a, b⟩)
        · exact .inl h
        · exact .inr ⟨hk, j, hpad c hcn j a, a, b⟩
      · rintro (h | ⟨hk, j, hj, a, b⟩)
        · exact .inl h
        · exact .inr ⟨hk, j, by omega, by omega, a, b⟩
    obtain ⟨s', e', ⟨x, hx⟩, hl, hall⟩ := ih (c + 1)
      { s1 with ofs := s1.ofs ++ [s1.bits.length], bits := s1.bits ++ VisRow.compressRow s1.buf }
      (by omega) (by dsimp only; rw [h1]; exact holds_append hh _) h3 h4 (by simp [h2, hofs]) (by
        intro d hd
        by_cases hdc : d < c
        · obtain ⟨b, r, a, p, q, t⟩ := hdone d hdc
          refine ⟨b, r, a ++ VisRow.compressRow s1.buf, by dsimp only; rw [h1, p]; simp, ?_, t⟩
          dsimp only
          rw [h2, List.getElem?_append_left (by omega)]; exact q
        · have : d = c := by omega
          subst this
          refine ⟨s1.bits, s1.buf, [], by simp, ?_, hphs⟩
          dsimp only
          rw [h2, List.getElem?_append_right (by omega)]
          simp [hofs])
    refine ⟨s', e', ⟨VisRow.compressRow s1.buf ++ x, ?_⟩, hl, hall⟩
    rw [hx]; simp [h1]

end Verif.Vis.Rows
