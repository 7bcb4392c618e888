import Verif.Cmdlib.Spec
import Mathlib.Data.List.TakeWhile
import Mathlib.Data.List.Forall2
import Mathlib.Tactic.Ring
import Mathlib.Tactic.Linarith

namespace Verif.Cmdlib

open Verif Verif.Cmdlib.Spec

/-! ### CRC -/

def shift0 (r : BitVec 16) : BitVec 16 := shiftIn r false

def eight0 (r : BitVec 16) : BitVec 16 := shift0 (shift0 (shift0 (shift0 (shift0 (shift0 (shift0 (shift0 r)))))))

theorem shift0_eq (r : BitVec 16) : shift0 r = (r <<< 1) ^^^ (if r.msb then 0x1021 else 0) := by
  unfold shift0 shiftIn
  cases r.msb <;> simp

theorem shift0_xor (x y : BitVec 16) : shift0 (x ^^^ y) = shift0 x ^^^ shift0 y := by
  rw [shift0_eq, shift0_eq, shift0_eq, BitVec.msb_xor, BitVec.shiftLeft_xor_distrib]
  generalize x <<< 1 = a
  generalize y <<< 1 = b
  generalize (4129 : BitVec 16) = c
  cases x.msb <;> cases y.msb <;> simp
  · rw [BitVec.xor_assoc]
  · rw [BitVec.xor_assoc, BitVec.xor_assoc, BitVec.xor_comm b]
  · rw [BitVec.xor_assoc, BitVec.xor_comm c, BitVec.xor_assoc, BitVec.xor_self]
    simp

theorem eight0_xor (x y : BitVec 16) : eight0 (x ^^^ y) = eight0 x ^^^ eight0 y := by
  simp only [eight0, shift0_xor]

def top (b : Bool) : BitVec 16 := if b then 0x8000 else 0

theorem shiftIn_eq (r : BitVec 16) (b : Bool) : shiftIn r b = shift0 (r ^^^ top b) := by
  cases b with
  | false => simp [top, shift0]
  | true =>
    rw [shift0_xor]
    have : shift0 (top true) = 0x1021 := by decide +kernel
    rw [this, shift0_eq]
    unfold shiftIn
    cases r.msb <;> simp [BitVec.xor_assoc]

theorem bits_eq (d : BitVec 8) : bits d =
    [d.getMsbD 0, d.getMsbD 1, d.getMsbD 2, d.getMsbD 3, d.getMsbD 4, d.getMsbD 5, d.getMsbD 6, d.getMsbD 7] := rfl

/-- Feeding eight bits into a zero register, against one shift of the byte. -/
theorem bits_zero (d : BitVec 8) : (bits d).foldl shiftIn 0 = eight0 (d.setWidth 16 <<< 8) := by
  have h : ∀ n : Fin 256, (bits (BitVec.ofFin n)).foldl shiftIn 0 = eight0 ((BitVec.ofFin n : BitVec 8).setWidth 16 <<< 8) := by
    decide +kernel
  exact h d.toFin

theorem shiftIn_xor (x y : BitVec 16) (b : Bool) : shiftIn (x ^^^ y) b = shift0 x ^^^ shiftIn y b := by
  rw [shiftIn_eq, shiftIn_eq, BitVec.xor_assoc, shift0_xor]

theorem bits_foldl (r : BitVec 16) (d : BitVec 8) :
    (bits d).foldl shiftIn r = eight0 (r ^^^ (d.setWidth 16 <<< 8)) := by
  rw [eight0_xor, ← bits_zero, bits_eq]
  simp only [List.foldl_cons, List.foldl_nil]
  conv_lhs => rw [show r = r ^^^ 0 from by simp]
  simp only [shiftIn_xor, eight0]

theorem eight0_low (l : BitVec 8) : eight0 (l.setWidth 16) = l.setWidth 16 <<< 8 := by
  have h : ∀ n : Fin 256, eight0 ((BitVec.ofFin n : BitVec 8).setWidth 16) = (BitVec.ofFin n : BitVec 8).setWidth 16 <<< 8 := by
    decide +kernel
  exact h l.toFin

/-- Every entry of the table. -/
theorem table_entry (i : BitVec 8) : crcTable[i.toNat]? = some (eight0 (i.setWidth 16 <<< 8)) := by
  have h : ∀ n : Fin 256, crcTable[n.val]? = some (eight0 ((BitVec.ofFin n : BitVec 8).setWidth 16 <<< 8)) := by
    decide +kernel
  exact h i.toFin

theorem split16 (r : BitVec 16) :
    r = ((r >>> 8).setWidth 8).setWidth 16 <<< 8 ^^^ (r.setWidth 8).setWidth 16 := by
  apply BitVec.eq_of_getLsbD_eq
  intro i hi
  simp only [BitVec.getLsbD_xor, BitVec.getLsbD_shiftLeft, BitVec.getLsbD_setWidth, BitVec.getLsbD_ushiftRight]
  by_cases h : i < 8
  · simp [h, hi]
  · have : 8 + (i - 8) = i := by omega
    have h8 : i - 8 < 8 := by omega
    have h16 : i - 8 < 16 := by omega
    simp [h, hi, this, h8, h16]

theorem crcByte_eq (r : BitVec 16) (d : BitVec 8) : crcByte r d = .ok ((bits d).foldl shiftIn r) := by
  have hidx : ((r >>> 8) ^^^ d.setWidth 16).toNat = ((r >>> 8).setWidth 8 ^^^ d).toNat := by
    have : (r >>> 8) ^^^ d.setWidth 16 = ((r >>> 8).setWidth 8 ^^^ d).setWidth 16 := by
      apply BitVec.eq_of_getLsbD_eq
      intro i hi
      simp only [BitVec.getLsbD_xor, BitVec.getLsbD_setWidth, BitVec.getLsbD_ushiftRight]
      by_cases h : i < 8
      · simp [h, hi]
      · have : r.getLsbD (8 + i) = false := BitVec.getLsbD_of_ge _ _ (by omega)
        simp [h, hi, this]
    rw [this, BitVec.toNat_setWidth]
    have := ((r >>> 8).setWidth 8 ^^^ d).isLt
    omega
  unfold crcByte Outcome.readAt
  rw [hidx, table_entry]
  simp only [Outcome.ok_bind, Outcome.pure_eq, Outcome.ok.injEq]
  rw [bits_foldl]
  conv_rhs => rw [split16 r]
  rw [BitVec.xor_assoc, BitVec.xor_comm ((r.setWidth 8).setWidth 16), ← BitVec.xor_assoc,
    ← BitVec.shiftLeft_xor_distrib, eight0_xor, eight0_low, BitVec.xor_comm]
  congr 1
  apply BitVec.eq_of_getLsbD_eq
  intro i hi
  simp only [BitVec.getLsbD_shiftLeft, BitVec.getLsbD_setWidth]
  by_cases h : i < 8
  · simp [h]
  · have h8 : i - 8 < 8 := by omega
    have h16 : i - 8 < 16 := by omega
    simp [h8, h16, hi]

theorem crcLoop_eq (rest : List (BitVec 8)) : ∀ (msg : List (BitVec 8)) (r : BitVec 16),
    crcLoop r (msg ++ rest) msg.length = .ok ((msg.flatMap bits).foldl shiftIn r)
  | [], r => by cases rest <;> simp [crcLoop]
  | b :: msg, r => by
    simp only [List.cons_append, List.length_cons, crcLoop, crcByte_eq, Outcome.ok_bind]
    rw [crcLoop_eq rest msg]
    simp [List.foldl_append]

/-! ### Ignoring case -/

theorem sameLetter_iff (a b : UInt8) : SameLetter a b ↔ toLower a = toLower b := by
  have ha := a.toNat_lt
  have hb := b.toNat_lt
  simp only [SameLetter, toLower, UInt8.le_iff_toNat_le, Bool.and_eq_true, decide_eq_true_eq]
  split <;> split <;> simp only [← UInt8.toNat_inj, UInt8.toNat_add, UInt8.reduceToNat] at * <;> omega

theorem sameText_iff (a b : Str) : SameText a b ↔ a.map toLower = b.map toLower := by
  unfold SameText
  induction a generalizing b with
  | nil =>
    cases b with
    | nil => simp
    | cons y b => exact ⟨fun h => (nomatch h), fun h => by simp at h⟩
  | cons x a ih =>
    cases b with
    | nil => exact ⟨fun h => (nomatch h), fun h => by simp at h⟩
    | cons y b => simp [ih, sameLetter_iff]

theorem all_range_succ (f : Nat → Bool) (n : Nat) :
    (List.range (n + 1)).all f = (f 0 && (List.range n).all fun i => f (i + 1)) := by
  rw [List.range_succ_eq_map]
  simp [List.all_map, Function.comp_def]

theorem iequals_iff (a b : Str) : iequals a b = true ↔ a.map toLower = b.map toLower := by
  induction a generalizing b with
  | nil => cases b <;> simp [iequals]
  | cons x a ih =>
    cases b with
    | nil => simp [iequals]
    | cons y b =>
      have := ih b
      unfold iequals at this ⊢
      simp only [List.length_cons, List.map_cons, List.cons.injEq]
      rw [← this]
      by_cases hl : b.length = a.length
      · simp [hl, all_range_succ]
      · simp [hl]

theorem hash_map (s : Str) : ∀ (t : Str) (h : BitVec 64), s.map toLower = t.map toLower →
    s.foldl hashStep h = t.foldl hashStep h := by
  induction s with
  | nil => intro t h e; cases t <;> simp at e ⊢
  | cons x s ih =>
    intro t h e
    cases t with
    | nil => simp at e
    | cons y t =>
      simp only [List.map_cons, List.cons.injEq] at e
      simp only [List.foldl_cons]
      have : hashStep h x = hashStep h y := by unfold hashStep; rw [e.1]
      rw [this, ih t _ e.2]

theorem toLower_ne_zero (a : UInt8) (h : a ≠ 0) : (toLower a).toNat ≠ 0 := by
  have : ∀ x : Fin 256, UInt8.ofNat x ≠ 0 → (toLower (UInt8.ofNat x)).toNat ≠ 0 := by decide +kernel
  have := this ⟨a.toNat, a.toNat_lt⟩
  simp only [UInt8.ofNat_toNat] at this
  exact this h

theorem strcasecmp_zero (a : Str) : ∀ b : Str, (∀ c ∈ a, c ≠ 0) → (∀ c ∈ b, c ≠ 0) →
    (strcasecmp a b = 0 ↔ a.map toLower = b.map toLower) := by
  induction a with
  | nil =>
    intro b _ hb
    cases b with
    | nil => simp [strcasecmp]
    | cons y b =>
      have := toLower_ne_zero y (hb y (by simp))
      simp [strcasecmp]
      omega
  | cons x a ih =>
    intro b ha hb
    cases b with
    | nil =>
      have := toLower_ne_zero x (ha x (by simp))
      simp [strcasecmp]
      omega
    | cons y b =>
      have := ih b (fun c h => ha c (by simp [h])) (fun c h => hb c (by simp [h]))
      simp only [strcasecmp, List.map_cons, List.cons.injEq]
      split
      · rename_i h; simp [h, this]
      · rename_i h
        have : (toLower x).toNat ≠ (toLower y).toNat := fun e => h (UInt8.toNat_inj.mp e)
        simp [h]
        omega

/-- The order `strcasecmp` gives: lexicographic on the lower-cased bytes. -/
theorem strcasecmp_neg (a : Str) : ∀ b : Str, (∀ c ∈ a, c ≠ 0) → (∀ c ∈ b, c ≠ 0) →
    (strcasecmp a b < 0 ↔ a.map (fun c => (toLower c).toNat) < b.map (fun c => (toLower c).toNat)) := by
  induction a with
  | nil =>
    intro b _ hb
    cases b with
    | nil => simp [strcasecmp]
    | cons y b =>
      have := toLower_ne_zero y (hb y (by simp))
      simp [strcasecmp]
      omega
  | cons x a ih =>
    intro b ha hb
    cases b with
    | nil => simp [strcasecmp]
    | cons y b =>
      have := ih b (fun c h => ha c (by simp [h])) (fun c h => hb c (by simp [h]))
      simp only [strcasecmp, List.map_cons, List.cons_lt_cons_iff]
      split
      · rename_i h; simp [h, this]
      · rename_i h
        have : (toLower x).toNat ≠ (toLower y).toNat := fun e => h (UInt8.toNat_inj.mp e)
        simp [this]

theorem cstr_ne_zero (s : Str) : ∀ c ∈ cstr s, c ≠ 0 := by
  intro c h
  have := List.mem_takeWhile_imp h
  simpa using this

theorem cstr_of_noNul (s : Str) (h : ∀ c ∈ s, c ≠ 0) : cstr s = s := by
  unfold cstr
  rw [List.takeWhile_eq_self_iff]
  simpa using h

/-! ### Replacing -/

theorem occursAt_iff (pat s : Str) (k : Nat) : OccursAt pat s k ↔ k ≤ s.length ∧ pat <+: s.drop k := by
  constructor
  · rintro ⟨p, q, rfl, rfl⟩
    simp
  · rintro ⟨hk, q, hq⟩
    exact ⟨s.take k, q, by rw [List.append_assoc, hq, List.take_append_drop], by simp [hk]⟩

theorem findFrom_none (pat done rest : Str) (h : findFrom (done ++ rest) pat done.length = none) :
    ∀ k, ¬ OccursAt pat rest k := by
  intro k hk
  rw [occursAt_iff] at hk
  unfold findFrom at h
  simp only [List.length_append, Nat.le_add_right, if_true, Option.map_eq_none_iff, List.find?_eq_none,
    List.mem_range] at h
  have := h k (by omega)
  apply this
  rw [List.isPrefixOf_iff_prefix, ← List.drop_drop]
  simpa using hk.2

theorem findFrom_some (pat done rest : Str) (pos : Nat)
    (h : findFrom (done ++ rest) pat done.length = some pos) :
    ∃ p q, rest = p ++ pat ++ q ∧ pos = done.length + p.length ∧
      ∀ k, k < p.length → ¬ OccursAt pat rest k := by
  unfold findFrom at h
  simp only [List.length_append, Nat.le_add_right, if_true, Option.map_eq_some_iff] at h
  obtain ⟨k, hk, rfl⟩ := h
  rw [List.find?_range_eq_some] at hk
  obtain ⟨h1, h2, h3⟩ := hk
  have e : ∀ j, (done ++ rest).drop (done.length + j) = rest.drop j := by
    intro j
    rw [← List.drop_drop]; simp
  rw [List.isPrefixOf_iff_prefix, e] at h1
  have hk : k ≤ rest.length := by
    have := List.mem_range.mp h2
    omega
  obtain ⟨p, q, e1, e2⟩ := (occursAt_iff pat rest k).mpr ⟨hk, h1⟩
  refine ⟨p, q, e1, by rw [e2], ?_⟩
  intro j hj ho
  have := h3 j (by omega)
  rw [e] at this
  have hp := ((occursAt_iff pat rest j).mp ho).2
  rw [← List.isPrefixOf_iff_prefix] at hp
  simp [hp] at this

theorem join_cons (sep p : Str) (parts : List Str) (h : parts ≠ []) :
    join sep (p :: parts) = p ++ sep ++ join sep parts := by
  cases parts with
  | nil => exact absurd rfl h
  | cons q parts => rfl

theorem split_ne {pat s : Str} {parts : List Str} (h : Split pat s parts) : parts ≠ [] := by
  cases h <;> simp

theorem split_join {pat s : Str} {parts : List Str} (h : Split pat s parts) : join pat parts = s := by
  induction h with
  | last _ => rfl
  | «at» _ hs ih => rw [join_cons _ _ _ (split_ne hs), ih]

theorem split_inv {pat s : Str} {parts : List Str} (h : Split pat s parts) :
    ((∀ k, ¬ OccursAt pat s k) ∧ parts = [s]) ∨ ∃ p q ps, s = p ++ pat ++ q ∧ parts = p :: ps ∧
      (∀ k, k < p.length → ¬ OccursAt pat s k) ∧ Split pat q ps := by
  cases h with
  | last h => exact Or.inl ⟨h, rfl⟩
  | @«at» p q ps h hs => exact Or.inr ⟨p, q, ps, rfl, rfl, h, hs⟩

theorem split_unique {pat : Str} {s : Str} {p1 p2 : List Str} (h1 : Split pat s p1)
    (h2 : Split pat s p2) : p1 = p2 := by
  induction h1 generalizing p2 with
  | last hn =>
    rcases split_inv h2 with ⟨_, e⟩ | ⟨p, q, ps, e, _, _, _⟩
    · exact e.symm
    · exact absurd ⟨p, q, e, rfl⟩ (hn p.length)
  | @«at» p q ps hf hs ih =>
    rcases split_inv h2 with ⟨hn, _⟩ | ⟨p', q', ps', e, e2, hf', hs'⟩
    · exact absurd ⟨p, q, rfl, rfl⟩ (hn p.length)
    · have hl : p.length = p'.length := by
        rcases Nat.lt_trichotomy p.length p'.length with h | h | h
        · exact absurd ⟨p, q, rfl, rfl⟩ (hf' _ h)
        · exact h
        · exact absurd ⟨p', q', e, rfl⟩ (hf _ h)
      rw [List.append_assoc, List.append_assoc] at e
      obtain ⟨e3, e4⟩ := List.append_inj e hl
      have e5 := List.append_cancel_left e4
      subst e3; subst e5
      rw [e2, ih hs']

theorem replaceLoop_eq (pat rep : Str) (hp : pat ≠ []) : ∀ (fuel : Nat) (done rest : Str), rest.length < fuel →
    ∃ parts, Split pat rest parts ∧
      replaceLoop pat rep fuel (done ++ rest) done.length = some (done ++ join rep parts) := by
  intro fuel
  induction fuel with
  | zero => intro done rest h; omega
  | succ fuel ih =>
    intro done rest h
    unfold replaceLoop
    cases hf : findFrom (done ++ rest) pat done.length with
    | none => exact ⟨[rest], .last (findFrom_none pat done rest hf), by simp [join]⟩
    | some pos =>
      obtain ⟨p, q, e1, e2, e3⟩ := findFrom_some pat done rest pos hf
      have hlen : 0 < pat.length := List.length_pos_iff.mpr hp
      subst e1
      simp only [List.length_append] at h
      obtain ⟨parts, hs, hr⟩ := ih (done ++ p ++ rep) q (by omega)
      refine ⟨p :: parts, .at e3 hs, ?_⟩
      have e4 : replaceAt (done ++ (p ++ pat ++ q)) pos pat.length rep = done ++ p ++ rep ++ q := by
        subst e2
        unfold replaceAt
        have e5 : done ++ (p ++ pat ++ q) = (done ++ p) ++ (pat ++ q) := by simp
        have e6 : done.length + p.length = (done ++ p).length := by simp
        rw [e5, e6, List.take_left, ← List.drop_drop, List.drop_left, List.drop_left]
      dsimp only
      rw [e4]
      have e5 : pos + rep.length = (done ++ p ++ rep).length := by simp [e2]; omega
      rw [e5, hr, join_cons _ _ _ (split_ne hs)]
      simp

/-! ### Natural ordering: irreflexive, asymmetric -/

theorem digitsLt_asymm (a : Str) : ∀ b, digitsLt a b = true → digitsLt b a = false := by
  induction a with
  | nil => intro b h; simp [digitsLt] at h
  | cons x a ih =>
    intro b h
    cases b with
    | nil => simp [digitsLt] at h
    | cons y b =>
      simp only [digitsLt] at h ⊢
      by_cases e : x = y
      · subst e
        simp at h ⊢
        exact ih b h
      · have e' : y ≠ x := fun x => e x.symm
        simp only [ne_eq, e, e', not_false_iff, if_true, decide_eq_true_eq, decide_eq_false_iff_not] at h ⊢
        exact fun h' => absurd (UInt8.lt_trans h h') (UInt8.lt_irrefl _)

theorem natLt_end (cs : Bool) (l1 l2 : Str) (s1 s2 : Nat) (h : l1 = [] ∨ l2 = []) :
    natLt cs l1 l2 s1 s2 = (decide (s1 < s2) || (decide (s1 = s2) && decide (l1 = [] ∧ l2 ≠ []))) := by
  rw [natLt.eq_def]
  rcases h with rfl | rfl
  · by_cases a : s1 < s2
    · simp [a]
    · by_cases b : s1 > s2
      · have : s1 ≠ s2 := by omega
        simp [a, b, this]
      · have : s1 = s2 := by omega
        subst this
        simp
  · cases l1 <;>
    · by_cases a : s1 < s2
      · simp [a]
      · simp [a]

theorem natLt_cons (cs : Bool) (a : UInt8) (as : Str) (b : UInt8) (bs : Str) (sz1 sz2 : Nat) :
    natLt cs (a :: as) (b :: bs) sz1 sz2 =
      if isDigit a = true then
        if isDigit b = true then
          if number (a :: as) = number (b :: bs) then
            if (if sz1 = 0 then zeros (a :: as) else sz1) = (if sz2 = 0 then zeros (b :: bs) else sz2) then
              natLt cs (afterNumber (a :: as)) (afterNumber (b :: bs)) 0 0
            else natLt cs (afterNumber (a :: as)) (afterNumber (b :: bs))
              (if sz1 = 0 then zeros (a :: as) else sz1) (if sz2 = 0 then zeros (b :: bs) else sz2)
          else if (number (a :: as)).length ≠ (number (b :: bs)).length then
            decide ((number (a :: as)).length < (number (b :: bs)).length)
          else digitsLt (number (a :: as)) (number (b :: bs))
        else true
      else if isDigit b = true then false
      else if charKey cs a = charKey cs b then natLt cs as bs sz1 sz2
      else decide (charKey cs a < charKey cs b) := by
  conv_lhs => rw [natLt.eq_def]
  have : ((number (a :: as)).length = (number (b :: bs)).length ∧ number (a :: as) = number (b :: bs)) ↔
      number (a :: as) = number (b :: bs) := ⟨fun h => h.2, fun h => ⟨by rw [h], h⟩⟩
  simp only [this, dite_eq_ite]

theorem natLt_asymm_aux (cs : Bool) : ∀ (n : Nat) (l1 l2 : Str) (s1 s2 : Nat), l1.length ≤ n →
    natLt cs l1 l2 s1 s2 = true → natLt cs l2 l1 s2 s1 = false := by
  intro n
  induction n with
  | zero =>
    intro l1 l2 s1 s2 hl h
    have e : l1 = [] := List.length_eq_zero_iff.mp (by omega)
    subst e
    rw [natLt_end _ _ _ _ _ (Or.inl rfl)] at h
    rw [natLt_end _ _ _ _ _ (Or.inr rfl)]
    simp at h ⊢
    omega
  | succ n ih =>
    intro l1 l2 s1 s2 hl h
    cases l1 with
    | nil =>
      rw [natLt_end _ _ _ _ _ (Or.inl rfl)] at h
      rw [natLt_end _ _ _ _ _ (Or.inr rfl)]
      simp at h ⊢
      omega
    | cons a as =>
      cases l2 with
      | nil =>
        rw [natLt_end _ _ _ _ _ (Or.inr rfl)] at h
        rw [natLt_end _ _ _ _ _ (Or.inl rfl)]
        simp at h ⊢
        omega
      | cons b bs =>
        rw [natLt_cons] at h ⊢
        by_cases ha : isDigit a = true
        · by_cases hb : isDigit b = true
          · rw [if_pos ha, if_pos hb] at h
            rw [if_pos hb, if_pos ha]
            have hlt := afterNumber_lt (s := as) ha
            by_cases hn : number (a :: as) = number (b :: bs)
            · rw [if_pos hn] at h
              rw [if_pos hn.symm]
              generalize (if s1 = 0 then zeros (a :: as) else s1) = z1 at h ⊢
              generalize (if s2 = 0 then zeros (b :: bs) else s2) = z2 at h ⊢
              by_cases hz : z1 = z2
              · rw [if_pos hz] at h
                rw [if_pos hz.symm]
                exact ih _ _ _ _ (by omega) h
              · rw [if_neg hz] at h
                rw [if_neg (fun e => hz e.symm)]
                exact ih _ _ _ _ (by omega) h
            · rw [if_neg hn] at h
              rw [if_neg (fun e => hn e.symm)]
              by_cases hlen : (number (a :: as)).length = (number (b :: bs)).length
              · rw [if_neg (by simpa using hlen)] at h
                rw [if_neg (by simpa using hlen.symm)]
                exact digitsLt_asymm _ _ h
              · rw [if_pos hlen] at h
                rw [if_pos (fun e => hlen e.symm)]
                simp only [decide_eq_true_eq, decide_eq_false_iff_not] at h ⊢
                omega
          · rw [if_neg hb, if_pos ha]
        · by_cases hb : isDigit b = true
          · rw [if_neg ha, if_pos hb] at h
            exact absurd h (by simp)
          · rw [if_neg ha, if_neg hb] at h
            rw [if_neg hb, if_neg ha]
            by_cases hk : charKey cs a = charKey cs b
            · rw [if_pos hk] at h
              rw [if_pos hk.symm]
              exact ih _ _ _ _ (by simp only [List.length_cons] at hl; omega) h
            · rw [if_neg hk] at h
              rw [if_neg (fun e => hk e.symm)]
              simp only [decide_eq_true_eq, decide_eq_false_iff_not] at h ⊢
              omega

end Verif.Cmdlib
