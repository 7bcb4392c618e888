import Verif.VisCull.Spec
import Verif.VisRow.Props
import Mathlib.Data.Nat.Bitwise

/-! Lemmas about the use of visibility. -/

namespace Verif.VisCull

open Spec

/-! ### Bits -/

theorem and_shift (x k : Nat) : ((x &&& 1 <<< k) != 0) = x.testBit k := by
  rw [Nat.one_shiftLeft, Nat.and_two_pow]
  cases h : x.testBit k <;> simp

theorem bitAt_eq {pvs : List UInt8} {i : Nat} {x : UInt8} (h : pvs[i / 8]? = some x) : bitAt pvs i = .ok (x.toNat.testBit (i % 8)) := by
  unfold bitAt Outcome.readAt
  rw [h]
  simp only [Outcome.ok_bind, and_shift]

theorem bitAt_of_bit {pvs : List UInt8} {i : Nat} (h : Bit pvs i) : bitAt pvs i = .ok true := by
  obtain ⟨x, h1, h2⟩ := h
  rw [bitAt_eq h1, h2]

/-! ### Rows -/

theorem orRow_length : ∀ (a x : List UInt8), (orRow a x).length = a.length := by
  intro a
  induction a with
  | nil => intro x; cases x <;> rfl
  | cons a as ih => intro x; cases x <;> simp [orRow, ih]

theorem orRow_get : ∀ (a x : List UInt8) (j : Nat), (orRow a x)[j]? = match a[j]?, x[j]? with
    | some u, some v => some (u ||| v)
    | some u, none => some u
    | none, _ => none := by
  intro a
  induction a with
  | nil => intro x j; cases x <;> simp [orRow]
  | cons a as ih =>
    intro x j
    cases x with
    | nil => simp only [orRow, List.getElem?_nil]; cases (a :: as)[j]? <;> rfl
    | cons x xs =>
      cases j with
      | zero => simp [orRow]
      | succ j => simpa [orRow] using ih xs j

theorem bit_orRow {a x : List UInt8} {i : Nat} (hl : i / 8 < a.length) : Bit (orRow a x) i ↔ Bit a i ∨ Bit x i := by
  obtain ⟨u, hu⟩ : ∃ u, a[i / 8]? = some u := ⟨a[i / 8], List.getElem?_eq_getElem hl⟩
  unfold Bit
  rw [orRow_get, hu]
  rcases hx : x[i / 8]? with _ | v
  · simp
  · simp [UInt8.toNat_or, Nat.testBit_or]

theorem bit_full {n i : Nat} (h : i / 8 < n) : Bit (List.replicate n 255) i := by
  refine ⟨255, by simp [h], ?_⟩
  have : ∀ k < 8, (255 : UInt8).toNat.testBit k = true := by decide
  exact this _ (Nat.mod_lt _ (by omega))

theorem not_bit_zero {n i : Nat} : ¬ Bit (List.replicate n 0) i := by
  rintro ⟨x, h1, h2⟩
  rw [List.getElem?_replicate] at h1
  split at h1
  · cases h1
    simp at h2
  · cases h1

/-! ### The map of rows -/

/-- What the map has for a key: its row, if the key is a place in the file. -/
def Right (b : Bsp) (rows : Rows) (key : Int) (ofs : Int) : Prop :=
  if outside b ofs then findRow rows key = none
  else ∃ r, VisRow.decompressRow b.bits ofs.toNat (visSize b) = .ok r ∧ r.length = visSize b ∧ findRow rows key = some r

theorem findRow_append (rows : Rows) (k key : Int) (r : List UInt8) :
    findRow (rows ++ [(k, r)]) key = match findRow rows key with
      | some x => some x
      | none => if k = key then some r else none := by
  unfold findRow
  rw [List.find?_append]
  rcases hf : rows.find? fun p => decide (p.1 = key) with _ | p
  · by_cases h : k = key
    · simp [hf, h]
    · simp [hf, h]
  · simp [hf]

theorem inside_le {b : Bsp} {ofs : Int} (h : outside b ofs = false) : ofs.toNat ≤ b.bits.length ∧ 0 ≤ ofs := by
  unfold outside at h
  simp only [Bool.or_eq_false_iff, decide_eq_false_iff_not] at h
  omega

theorem allQ2_spec {b : Bsp} : ∀ (os : List Int) (c : Nat) (rows : Rows), (∀ k : Int, (c : Int) ≤ k → findRow rows k = none) →
    ∃ rows', allQ2 b os c rows = .ok rows' ∧ (∀ k : Int, k < c → findRow rows' k = findRow rows k) ∧
      (∀ (j : Nat) o, os[j]? = some o → Right b rows' ((c + j : Nat) : Int) o) ∧
      ∀ k : Int, (c : Int) + os.length ≤ k → findRow rows' k = none := by
  intro os
  induction os with
  | nil =>
    intro c rows h
    exact ⟨rows, rfl, fun _ _ => rfl, fun j o hj => by simp at hj, fun k hk => h k (by simpa using hk)⟩
  | cons o os ih =>
    intro c rows h
    unfold allQ2
    by_cases ho : outside b o = true
    · rw [if_pos ho]
      obtain ⟨rows', h1, h2, h3, h4⟩ := ih (c + 1) rows (fun k hk => h k (by omega))
      refine ⟨rows', h1, fun k hk => h2 k (by omega), ?_, fun k hk => h4 k (by simp at hk; omega)⟩
      intro j o' hj
      cases j with
      | zero =>
        simp only [List.getElem?_cons_zero, Option.some.injEq] at hj
        subst hj
        unfold Right
        rw [if_pos ho, h2 _ (by omega), h _ (by omega)]
      | succ j =>
        have := h3 j o' (by simpa using hj)
        rwa [show c + 1 + j = c + (j + 1) by omega] at this
    · rw [if_neg ho]
      obtain ⟨r, hr, hl⟩ := VisRow.pvs_decompress_memory_safe b.bits o.toNat (visSize b) (inside_le (by simpa using ho)).1
      rw [hr, Outcome.ok_bind]
      obtain ⟨rows', h1, h2, h3, h4⟩ := ih (c + 1) (rows ++ [((c : Int), r)]) (by
        intro k hk
        rw [findRow_append, h k (by omega)]
        simp; omega)
      refine ⟨rows', h1, ?_, ?_, fun k hk => h4 k (by simp at hk; omega)⟩
      · intro k hk
        rw [h2 k (by omega), findRow_append]
        rcases findRow rows k with _ | x
        · simp; omega
        · rfl
      · intro j o' hj
        cases j with
        | zero =>
          simp only [List.getElem?_cons_zero, Option.some.injEq] at hj
          subst hj
          unfold Right
          rw [if_neg ho]
          refine ⟨r, hr, hl, ?_⟩
          rw [h2 _ (by omega), findRow_append, h _ (by omega)]
          simp
        | succ j =>
          have := h3 j o' (by simpa using hj)
          rwa [show c + 1 + j = c + (j + 1) by omega] at this

/-- A row, if any, is the right one, and nothing outside has one. -/
def Sane (b : Bsp) (rows : Rows) : Prop :=
  ∀ (k : Int) r, findRow rows k = some r → outside b k = false ∧ VisRow.decompressRow b.bits k.toNat (visSize b) = .ok r ∧ r.length = visSize b

theorem allQ1_spec {b : Bsp} : ∀ (ls : List Leaf) (rows : Rows), Sane b rows →
    ∃ rows', allQ1 b ls rows = .ok rows' ∧ Sane b rows' ∧ (∀ (k : Int) r, findRow rows k = some r → findRow rows' k = some r) ∧
      ∀ l ∈ ls, outside b l.visofs = false → (findRow rows' l.visofs).isSome = true := by
  intro ls
  induction ls with
  | nil => exact fun rows h => ⟨rows, rfl, h, fun _ _ g => g, fun l hl => by simp at hl⟩
  | cons l ls ih =>
    intro rows h
    unfold allQ1
    by_cases h0 : l.visofs < 0
    · rw [if_pos h0]
      obtain ⟨rows', h1, h2, h3, h4⟩ := ih rows h
      refine ⟨rows', h1, h2, h3, ?_⟩
      intro m hm ho
      rcases List.mem_cons.1 hm with rfl | hm
      · exact absurd (inside_le ho).2 (by omega)
      · exact h4 m hm ho
    · rw [if_neg h0]
      by_cases hs : (findRow rows l.visofs).isSome = true
      · rw [if_pos hs]
        obtain ⟨rows', h1, h2, h3, h4⟩ := ih rows h
        refine ⟨rows', h1, h2, h3, ?_⟩
        intro m hm ho
        rcases List.mem_cons.1 hm with rfl | hm
        · obtain ⟨r, hr⟩ := Option.isSome_iff_exists.1 hs
          rw [h3 _ r hr]
          rfl
        · exact h4 m hm ho
      · rw [if_neg hs]
        by_cases ho : outside b l.visofs = true
        · rw [if_pos ho]
          obtain ⟨rows', h1, h2, h3, h4⟩ := ih rows h
          refine ⟨rows', h1, h2, h3, ?_⟩
          intro m hm ho'
          rcases List.mem_cons.1 hm with rfl | hm
          · rw [ho] at ho'
            cases ho'
          · exact h4 m hm ho'
        · rw [if_neg ho]
          have ho2 : outside b l.visofs = false := by simpa using ho
          obtain ⟨r, hr, hl⟩ := VisRow.pvs_decompress_memory_safe b.bits l.visofs.toNat (visSize b) (inside_le ho2).1
          rw [hr, Outcome.ok_bind]
          obtain ⟨rows', h1, h2, h3, h4⟩ := ih (rows ++ [(l.visofs, r)]) (by
            intro k r' hk
            rw [findRow_append] at hk
            rcases hf : findRow rows k with _ | x
            · rw [hf] at hk
              dsimp only at hk
              split at hk
              · rename_i hkey
                cases hk
                subst hkey
                exact ⟨ho2, hr, hl⟩
              · cases hk
            · rw [hf] at hk
              cases hk
              exact h k _ hf)
          refine ⟨rows', h1, h2, ?_, ?_⟩
          · intro k r' hk
            apply h3
            rw [findRow_append, hk]
          · intro m hm ho'
            rcases List.mem_cons.1 hm with rfl | hm
            · have : findRow (rows ++ [(m.visofs, r)]) m.visofs = some r := by
                rw [findRow_append]
                have : findRow rows m.visofs = none := by simpa using hs
                rw [this]
                simp
              rw [h3 _ r this]
              rfl
            · exact h4 m hm ho'

/-- The decompression of all rows succeeds, and a leaf with a row gets it; one without a place in the file gets none. -/
theorem decompressAll_ok (b : Bsp) : ∃ rows, decompressAll b = .ok rows ∧ ∀ (n : Nat) l, b.leafs[n]? = some l →
    (∀ row, RowOf b n row → findRow rows (if b.q2 then l.cluster else l.visofs) = some row) ∧
    (∀ r, findRow rows (if b.q2 then l.cluster else l.visofs) = some r → r.length = visSize b) := by
  unfold decompressAll
  by_cases hq : b.q2 = true
  · rw [if_pos hq]
    obtain ⟨rows, h1, -, h3, h4⟩ := allQ2_spec (b := b) b.offsets 0 [] (fun _ _ => rfl)
    have key : ∀ k : Int, k < 0 → findRow rows k = none := by
      obtain ⟨rows2, g1, g2, -⟩ := allQ2_spec (b := b) b.offsets 0 [] (fun _ _ => rfl)
      rw [h1] at g1
      cases g1
      exact fun k hk => g2 k (by simpa using hk)
    refine ⟨rows, h1, ?_⟩
    intro n l hl
    simp only [hq, if_true]
    constructor
    · rintro row ⟨hlen, hne, before, after, hb, l', hl', hstart⟩
      rw [hl] at hl'
      cases hl'
      simp only [hq, if_true] at hstart
      have hr := h3 _ _ hstart.2
      have hin : outside b (before.length : Int) = false := by
        have : 0 < (VisRow.compressRow row).length := by
          cases row with
          | nil => exact absurd rfl hne
          | cons x xs => unfold VisRow.compressRow; split <;> simp
        have hbl : b.bits.length = before.length + (VisRow.compressRow row).length + after.length := by
          rw [hb]; simp; omega
        unfold outside
        simp
        omega
      unfold Right at hr
      rw [hin] at hr
      simp only [Bool.false_eq_true, if_false] at hr
      obtain ⟨r, g1, -, g3⟩ := hr
      rw [Int.toNat_natCast, hb, ← hlen, VisRow.pvs_row_roundtrip] at g1
      cases g1
      rw [Nat.zero_add, Int.toNat_of_nonneg hstart.1] at g3
      exact g3
    · intro r hr
      by_cases hc : l.cluster < 0
      · rw [key _ hc] at hr
        cases hr
      · rcases ho : b.offsets[l.cluster.toNat]? with _ | o
        · have := h4 l.cluster (by have := List.getElem?_eq_none_iff.1 ho; omega)
          rw [this] at hr
          cases hr
        · have hR := h3 _ _ ho
          rw [Nat.zero_add, Int.toNat_of_nonneg (by omega)] at hR
          unfold Right at hR
          split at hR
          · rw [hR] at hr
            cases hr
          · obtain ⟨r', -, g2, g3⟩ := hR
            rw [hr] at g3
            cases g3
            exact g2
  · rw [if_neg hq]
    obtain ⟨rows, h1, h2, -, h4⟩ := allQ1_spec (b := b) b.leafs [] (fun k r h => by simp [findRow] at h)
    refine ⟨rows, h1, ?_⟩
    intro n l hl
    rw [if_neg hq]
    constructor
    · rintro row ⟨hlen, hne, before, after, hb, l', hl', hstart⟩
      rw [hl] at hl'
      cases hl'
      rw [if_neg hq] at hstart
      have hin : outside b l.visofs = false := by
        have : 0 < (VisRow.compressRow row).length := by
          cases row with
          | nil => exact absurd rfl hne
          | cons x xs => unfold VisRow.compressRow; split <;> simp
        have hbl : b.bits.length = before.length + (VisRow.compressRow row).length + after.length := by
          rw [hb]; simp; omega
        unfold outside
        simp [hstart]
        omega
      obtain ⟨r, hr⟩ := Option.isSome_iff_exists.1 (h4 l (List.mem_of_getElem? hl) hin)
      obtain ⟨-, g1, -⟩ := h2 _ _ hr
      rw [hstart, Int.toNat_natCast, hb, ← hlen, VisRow.pvs_row_roundtrip] at g1
      cases g1
      exact hr
    · intro r hr
      exact (h2 _ _ hr).2.2

/-! ### The leafs of a face -/

theorem marks_mem {b : Bsp} {face n : Nat} : ∀ (k i : Nat) {r : List Nat}, marks b face n i k = .ok r →
    ∀ m, m ∈ r ↔ m = n ∧ ∃ j, i ≤ j ∧ j < i + k ∧ b.leaffaces[j]? = some face := by
  intro k
  induction k with
  | zero =>
    intro i r h m
    simp only [marks, Outcome.ok.injEq] at h
    subst h
    constructor
    · intro g; simp at g
    · rintro ⟨-, j, h1, h2, -⟩; omega
  | succ k ih =>
    intro i r h m
    unfold marks at h
    obtain ⟨f, hf, h⟩ := Outcome.bind_eq_ok.1 h
    obtain ⟨r', hr, h⟩ := Outcome.bind_eq_ok.1 h
    simp only [Outcome.ok.injEq] at h
    subst h
    have hf' : b.leaffaces[i]? = some f := by
      unfold Outcome.readAt at hf
      rcases hg : b.leaffaces[i]? with _ | x
      · rw [hg] at hf; cases hf
      · rw [hg] at hf; cases hf; rfl
    have := ih (i + 1) hr m
    by_cases hff : f = face
    · rw [if_pos hff, List.mem_cons, this]
      constructor
      · rintro (rfl | ⟨rfl, j, g1, g2, g3⟩)
        · exact ⟨rfl, i, Nat.le_refl _, by omega, by rw [hf', hff]⟩
        · exact ⟨rfl, j, by omega, by omega, g3⟩
      · rintro ⟨rfl, -⟩
        exact .inl rfl
    · rw [if_neg hff, this]
      constructor
      · rintro ⟨rfl, j, g1, g2, g3⟩
        exact ⟨rfl, j, by omega, by omega, g3⟩
      · rintro ⟨rfl, j, g1, g2, g3⟩
        refine ⟨rfl, j, ?_, by omega, g3⟩
        rcases Nat.lt_or_ge i j with hj | hj
        · omega
        · have : j = i := by omega
          subst this
          rw [hf'] at g3
          exact absurd (Option.some.inj g3) hff

theorem worldLeaves_mem {b : Bsp} {face : Nat} : ∀ (ls : List Leaf) (n : Nat) {r : List Nat}, worldLeaves b face ls n = .ok r →
    ∀ m, m ∈ r ↔ ∃ j l, ls[j]? = some l ∧ m = n + j ∧ ∃ i, l.firstmark ≤ i ∧ i < l.firstmark + l.nummark ∧ b.leaffaces[i]? = some face := by
  intro ls
  induction ls with
  | nil =>
    intro n r h m
    simp only [worldLeaves, Outcome.ok.injEq] at h
    subst h
    simp
  | cons l ls ih =>
    intro n r h m
    unfold worldLeaves at h
    obtain ⟨m1, h1, h⟩ := Outcome.bind_eq_ok.1 h
    obtain ⟨m2, h2, h⟩ := Outcome.bind_eq_ok.1 h
    simp only [Outcome.ok.injEq] at h
    subst h
    rw [List.mem_append, marks_mem _ _ h1, ih _ h2]
    constructor
    · rintro (⟨rfl, g⟩ | ⟨j, l', g1, g2, g3⟩)
      · exact ⟨0, l, rfl, by omega, g⟩
      · exact ⟨j + 1, l', by simpa using g1, by omega, g3⟩
    · rintro ⟨j, l', g1, g2, g3⟩
      cases j with
      | zero =>
        simp only [List.getElem?_cons_zero, Option.some.injEq] at g1
        subst g1
        exact .inl ⟨by omega, g3⟩
      | succ j => exact .inr ⟨j, l', by simpa using g1, by omega, g3⟩

theorem modelLeaves_mem : ∀ (ps acc : List Nat) (m : Nat), m ∈ modelLeaves ps acc ↔ m ∈ ps ∨ m ∈ acc := by
  intro ps
  induction ps with
  | nil => intro acc m; simp [modelLeaves]
  | cons p ps ih =>
    intro acc m
    unfold modelLeaves
    rw [ih]
    by_cases hp : p ∈ acc
    · rw [if_pos hp, List.mem_cons]
      constructor
      · rintro (h | h)
        · exact .inl (.inr h)
        · exact .inr h
      · rintro ((rfl | h) | h)
        · exact .inr hp
        · exact .inl h
        · exact .inr h
    · rw [if_neg hp, List.mem_cons, List.mem_append, List.mem_singleton]
      tauto

/-! ### The visibility of a face -/

/-- The key of the row of a leaf. -/
abbrev keyOf (b : Bsp) (l : Leaf) : Int := if b.q2 then l.cluster else l.visofs

/-- What a leaf adds to the visibility of a face. -/
def Shows (b : Bsp) (rows : Rows) (n i : Nat) : Prop :=
  ∃ l, b.leafs[n]? = some l ∧ (l.liquid = true ∨ findRow rows (keyOf b l) = none ∨ ∃ r, findRow rows (keyOf b l) = some r ∧ Bit r i)

theorem readAt_ok {α : Type} {l : List α} {i : Nat} {x : α} : Outcome.readAt l i = .ok x ↔ l[i]? = some x := by
  unfold Outcome.readAt
  rcases l[i]? with _ | y
  · simp
  · simp

theorem merge_spec {b : Bsp} {rows : Rows}
    (hrows : ∀ (n : Nat) l r, b.leafs[n]? = some l → findRow rows (keyOf b l) = some r → r.length = visSize b) :
    ∀ (ns : List Nat) (pvs out : List UInt8), pvs.length = visSize b → merge b rows ns pvs = .ok out →
      out.length = visSize b ∧ ∀ i, i / 8 < visSize b → (Bit out i ↔ Bit pvs i ∨ ∃ n ∈ ns, Shows b rows n i) := by
  intro ns
  induction ns with
  | nil =>
    intro pvs out hl h
    simp only [merge, Outcome.ok.injEq] at h
    subst h
    exact ⟨hl, fun i _ => by simp⟩
  | cons n ns ih =>
    intro pvs out hl h
    unfold merge at h
    obtain ⟨l, hg, h⟩ := Outcome.bind_eq_ok.1 h
    obtain ⟨p, hp, h⟩ := Outcome.bind_eq_ok.1 h
    rw [readAt_ok] at hg
    by_cases hq : l.liquid = true
    · rw [if_pos hq] at h
      simp only [Outcome.ok.injEq] at h
      subst h
      refine ⟨by rw [orRow_length, hl], fun i hi => ?_⟩
      rw [bit_orRow (by rw [hl]; exact hi)]
      constructor
      · intro _
        exact .inr ⟨n, List.mem_cons_self, l, hg, .inl hq⟩
      · intro _
        exact .inr (bit_full hi)
    · rw [if_neg hq] at h
      obtain ⟨h1, h2⟩ := ih (orRow pvs p) out (by rw [orRow_length, hl]) h
      refine ⟨h1, fun i hi => ?_⟩
      rw [h2 i hi, bit_orRow (by rw [hl]; exact hi)]
      have hshow : Shows b rows n i ↔ Bit p i := by
        unfold leafPvs at hp
        rcases hf : findRow rows (keyOf b l) with _ | r
        · rw [hf] at hp
          simp only [Outcome.ok.injEq] at hp
          subst hp
          exact ⟨fun _ => bit_full hi, fun _ => ⟨l, hg, .inr (.inl hf)⟩⟩
        · rw [hf] at hp
          dsimp only at hp
          have hrl := hrows n l r hg hf
          rw [if_neg (by omega)] at hp
          simp only [Outcome.ok.injEq] at hp
          rw [← hrl, List.take_length] at hp
          subst hp
          constructor
          · rintro ⟨l', g1, g2⟩
            rw [hg] at g1
            cases g1
            rcases g2 with g | g | ⟨r', g, g'⟩
            · exact absurd g hq
            · rw [hf] at g; cases g
            · rw [hf] at g; cases g; exact g'
          · exact fun g => ⟨l, hg, .inr (.inr ⟨r, hf, g⟩)⟩
      constructor
      · rintro ((g | g) | ⟨m, hm, g⟩)
        · exact .inl g
        · exact .inr ⟨n, List.mem_cons_self, hshow.2 g⟩
        · exact .inr ⟨m, List.mem_cons_of_mem _ hm, g⟩
      · rintro (g | ⟨m, hm, g⟩)
        · exact .inl (.inl g)
        · rcases List.mem_cons.1 hm with rfl | hm
          · exact .inl (.inr (hshow.1 g))
          · exact .inr ⟨m, hm, g⟩

/-- What is known of the visibility of a face. -/
theorem face_spec {b : Bsp} {world : Bool} {face : Nat} {points leaves : List Nat} {pvs : List UInt8} (hb : b.bits ≠ [])
    (h : Face b world face points leaves pvs) : ∃ rows, decompressAll b = .ok rows ∧ (∀ n, n ∈ leaves ↔ Touches b world face points n) ∧
      pvs.length = visSize b ∧ ∀ i, i / 8 < visSize b → (Bit pvs i ↔ ∃ n, Touches b world face points n ∧ Shows b rows n i) := by
  obtain ⟨rows, h1, h2⟩ := h
  obtain ⟨rows', g1, g2⟩ := decompressAll_ok b
  rw [h1] at g1
  cases g1
  unfold calcPvs at h2
  rw [if_neg hb] at h2
  obtain ⟨lv, h3, h2⟩ := Outcome.bind_eq_ok.1 h2
  obtain ⟨p, h4, h2⟩ := Outcome.bind_eq_ok.1 h2
  simp only [Outcome.ok.injEq, Prod.mk.injEq] at h2
  obtain ⟨rfl, rfl⟩ := h2
  have hmem : ∀ n, n ∈ lv ↔ Touches b world face points n := by
    intro n
    unfold Touches
    cases world with
    | true =>
      simp only [if_true] at h3 ⊢
      rw [worldLeaves_mem _ _ h3]
      unfold InLeaf
      constructor
      · rintro ⟨j, l, a1, a2, a3⟩
        exact ⟨l, by rw [a2, Nat.zero_add]; exact a1, a3⟩
      · rintro ⟨l, a1, a2⟩
        exact ⟨n, l, a1, by omega, a2⟩
    | false =>
      simp only [Bool.false_eq_true, if_false, Outcome.ok.injEq] at h3 ⊢
      subst h3
      rw [modelLeaves_mem]
      simp
  obtain ⟨a, c⟩ := merge_spec (fun n l r hl hf => (g2 n l hl).2 r hf) lv _ p (by simp) h4
  refine ⟨rows, h1, hmem, a, fun i hi => ?_⟩
  rw [c i hi]
  constructor
  · rintro (g | ⟨n, hn, g⟩)
    · exact absurd g not_bit_zero
    · exact ⟨n, (hmem n).1 hn, g⟩
  · rintro ⟨n, hn, g⟩
    exact .inr ⟨n, (hmem n).2 hn, g⟩

/-! ### The tests -/

theorem bitOf_lt {b : Bsp} {m i : Nat} (h : BitOf b m i) : i / 8 < visSize b := by
  obtain ⟨l, -, h2⟩ := h
  unfold visSize
  by_cases hq : b.q2 = true
  · rw [if_pos hq] at h2 ⊢
    obtain ⟨-, o, h3, -⟩ := h2
    have := (List.getElem?_eq_some_iff.1 h3).1
    omega
  · rw [if_neg hq] at h2 ⊢
    omega

theorem leafVisible_of {b : Bsp} {pvs : List UInt8} {m i : Nat} (h : BitOf b m i) : leafVisible b pvs m = bitAt pvs i := by
  obtain ⟨l, h1, h2⟩ := h
  unfold leafVisible
  rw [readAt_ok.2 h1, Outcome.ok_bind]
  by_cases hq : b.q2 = true
  · rw [if_pos hq] at h2 ⊢
    obtain ⟨hc, o, h3, h4, h5⟩ := h2
    rw [if_neg (by omega)]
    have hi : l.cluster.toNat = i := by omega
    rw [hi, h3]
    dsimp only
    rw [if_neg]
    unfold outside
    simp
    omega
  · rw [if_neg hq] at h2 ⊢
    rw [if_neg (by omega), if_neg (by omega)]
    congr 1
    omega

theorem leafVisible_no {b : Bsp} {pvs : List UInt8} {m : Nat} {l : Leaf} (hl : b.leafs[m]? = some l) (h : ∀ i, ¬ BitOf b m i) :
    leafVisible b pvs m = .ok false := by
  unfold leafVisible
  rw [readAt_ok.2 hl, Outcome.ok_bind]
  by_cases hq : b.q2 = true
  · rw [if_pos hq]
    by_cases hc : l.cluster < 0
    · rw [if_pos hc]
    · rw [if_neg hc]
      rcases ho : b.offsets[l.cluster.toNat]? with _ | o
      · rfl
      · dsimp only
        by_cases hx : outside b o = true
        · rw [if_pos hx]
        · refine absurd ⟨l, hl, ?_⟩ (h l.cluster.toNat)
          rw [if_pos hq]
          refine ⟨by omega, o, ho, ?_⟩
          unfold outside at hx
          simp at hx
          omega
  · rw [if_neg hq]
    by_cases h0 : m = 0
    · rw [if_pos h0]
    · rw [if_neg h0]
      by_cases h1 : b.visleafs ≤ m - 1
      · rw [if_pos h1]
      · refine absurd ⟨l, hl, ?_⟩ (h (m - 1))
        rw [if_neg hq]
        omega

theorem visCull_of_bit {b : Bsp} {pvs : List UInt8} {m i : Nat} (h : BitOf b m i) (hb : Bit pvs i) :
    visCull b pvs (some m) = .ok false := by
  unfold visCull
  by_cases hp : pvs = []
  · rw [if_pos hp]
  · rw [if_neg hp]
    dsimp only
    obtain ⟨l, h1, -⟩ := id h
    rw [readAt_ok.2 h1, Outcome.ok_bind]
    split
    · rfl
    · rw [leafVisible_of h, bitAt_of_bit hb]
      rfl

theorem visCull_plain {b : Bsp} {pvs : List UInt8} {m : Nat} (hp : pvs ≠ []) (hl : pvs.length = visSize b) (hm : Plain b m) :
    ∃ v, visCull b pvs (some m) = .ok v ∧ (v = true ↔ ¬ ∃ i, BitOf b m i ∧ Bit pvs i) := by
  obtain ⟨l, h1, h2, h3, h4⟩ := hm
  unfold visCull
  rw [if_neg hp]
  dsimp only
  rw [readAt_ok.2 h1, Outcome.ok_bind, if_neg (by simp [h2, h3, h4])]
  by_cases hx : ∃ i, BitOf b m i
  · obtain ⟨i, hi⟩ := hx
    obtain ⟨x, hxx⟩ : ∃ x, pvs[i / 8]? = some x := ⟨_, List.getElem?_eq_getElem (by rw [hl]; exact bitOf_lt hi)⟩
    rw [leafVisible_of hi, bitAt_eq hxx, Outcome.ok_bind]
    refine ⟨_, rfl, ?_⟩
    have uniq : ∀ j, BitOf b m j → j = i := by
      rintro j ⟨l1, a1, a2⟩
      obtain ⟨l2, b1, b2⟩ := hi
      rw [h1] at a1 b1
      cases a1
      cases b1
      by_cases hq : b.q2 = true
      · rw [if_pos hq] at a2 b2
        omega
      · rw [if_neg hq] at a2 b2
        omega
    constructor
    · rintro g ⟨j, hj, y, hy, ht⟩
      have := uniq j hj
      subst this
      rw [hxx] at hy
      cases hy
      rw [ht] at g
      cases g
    · intro g
      rcases ht : x.toNat.testBit (i % 8) with _ | _
      · rfl
      · exact absurd ⟨i, hi, x, hxx, ht⟩ g
  · rw [leafVisible_no h1 (fun i hi => hx ⟨i, hi⟩), Outcome.ok_bind]
    exact ⟨_, rfl, fun _ ⟨i, hi, _⟩ => hx ⟨i, hi⟩, fun _ => rfl⟩

end Verif.VisCull
