import Verif.Cmdlib.Lemmas

/-! Lemmas on the natural ordering: digit strings against their values, and `natLt` against `Spec.key`. -/

namespace Verif.Cmdlib

open Verif Verif.Cmdlib.Spec

def Digits (s : Str) : Prop := ∀ c ∈ s, isDigit c = true

/-- Without leading zeros, or `0` itself. -/
def Normal (s : Str) : Prop := s = [48] ∨ ∃ d ds, s = d :: ds ∧ d ≠ 48

theorem isDigit_iff (b : UInt8) : isDigit b = true ↔ 48 ≤ b.toNat ∧ b.toNat ≤ 57 := by
  simp [isDigit, UInt8.le_iff_toNat_le]

theorem value_lt (s : Str) (h : Digits s) : value s < 10 ^ s.length := by
  induction s with
  | nil => simp [value]
  | cons d ds ih =>
    have h1 := (isDigit_iff d).mp (h d (by simp))
    have h2 := ih (fun c hc => h c (by simp [hc]))
    simp only [value, List.length_cons, pow_succ]
    have : d.toNat - 48 ≤ 9 := by omega
    nlinarith [Nat.mul_le_mul_right (10 ^ ds.length) this]

theorem value_ge (d : UInt8) (ds : Str) (h : isDigit d = true) (h0 : d ≠ 48) :
    10 ^ ds.length ≤ value (d :: ds) := by
  have h1 := (isDigit_iff d).mp h
  have : d.toNat ≠ 48 := fun e => h0 (UInt8.toNat_inj.mp (by simpa using e))
  have : 1 ≤ d.toNat - 48 := by omega
  simp only [value]
  nlinarith [Nat.mul_le_mul_right (10 ^ ds.length) this]

theorem value_cmp (a : Str) : ∀ b : Str, Digits a → Digits b → a.length = b.length →
    ((digitsLt a b = true ↔ value a < value b) ∧ (value a = value b → a = b)) := by
  induction a with
  | nil =>
    intro b _ _ hl
    have : b = [] := List.length_eq_zero_iff.mp (by simpa using hl.symm)
    subst this
    simp [digitsLt]
  | cons x a ih =>
    intro b ha hb hl
    cases b with
    | nil => simp at hl
    | cons y b =>
      have hx := (isDigit_iff x).mp (ha x (by simp))
      have hy := (isDigit_iff y).mp (hb y (by simp))
      have ha' : Digits a := fun c hc => ha c (by simp [hc])
      have hb' : Digits b := fun c hc => hb c (by simp [hc])
      have hl' : a.length = b.length := by simpa using hl
      obtain ⟨i1, i2⟩ := ih b ha' hb' hl'
      have va := value_lt a ha'
      have vb := value_lt b hb'
      simp only [value, digitsLt, hl'] at *
      by_cases e : x = y
      · subst e
        simp only [ne_eq, not_true, if_false, i1]
        refine ⟨by omega, ?_⟩
        intro h
        rw [i2 (by omega)]
      · have e' : x.toNat ≠ y.toNat := fun h => e (UInt8.toNat_inj.mp h)
        simp only [ne_eq, e, not_false_iff, if_true, decide_eq_true_eq, UInt8.lt_iff_toNat_lt]
        have key : ∀ m n : Nat, m < n → ∀ p v w : Nat, v < p → m * p + v < n * p + w := by
          intro m n hmn p v w hv
          have : (m + 1) * p ≤ n * p := Nat.mul_le_mul_right p hmn
          nlinarith
        rcases Nat.lt_or_gt_of_ne e' with h | h
        · have := key (x.toNat - 48) (y.toNat - 48) (by omega) (10 ^ b.length) (value a) (value b) va
          exact ⟨⟨fun _ => this, fun _ => h⟩, fun e => absurd e (by omega)⟩
        · have := key (y.toNat - 48) (x.toNat - 48) (by omega) (10 ^ b.length) (value b) (value a) vb
          exact ⟨⟨fun h' => absurd h' (by omega), fun h' => absurd h' (by omega)⟩, fun e => absurd e (by omega)⟩

theorem value_len (a b : Str) (ha : Digits a) (hb : Digits b) (na : Normal a) (nb : Normal b)
    (h : a.length < b.length) : value a < value b := by
  have va := value_lt a ha
  rcases nb with rfl | ⟨d, ds, rfl, h0⟩
  · rcases na with rfl | ⟨d, ds, rfl, _⟩ <;> simp at h
  · have vb := value_ge d ds (hb d (by simp)) h0
    have : 10 ^ a.length ≤ 10 ^ ds.length := Nat.pow_le_pow_right (by omega) (by simp at h; omega)
    omega

theorem number_digits (s : Str) : Digits (number s) := by
  unfold number
  split
  · intro c hc; simp at hc; subst hc; decide
  · rename_i d ds h
    intro c hc
    rw [← h] at hc
    exact List.mem_takeWhile_imp hc

theorem number_normal (s : Str) : Normal (number s) := by
  unfold number
  split
  · left; rfl
  · rename_i d ds h
    right
    refine ⟨d, ds, rfl, ?_⟩
    rintro rfl
    cases hd : s.dropWhile (· = 48) with
    | nil => rw [hd] at h; simp at h
    | cons c cs =>
      rw [hd] at h
      have hc : c ≠ 48 := by
        have := List.head_dropWhile_not (l := s) (fun x => decide (x = (48 : UInt8))) (by rw [hd]; simp)
        simp only [hd, List.head_cons] at this
        exact of_decide_eq_false this
      by_cases hcd : isDigit c = true
      · rw [List.takeWhile_cons, if_pos hcd] at h
        exact hc (by simpa using (List.cons.inj h).1)
      · rw [List.takeWhile_cons, if_neg hcd] at h
        simp at h

theorem value_drop_zeros (s : Str) :
    value ((s.dropWhile (· = 48)).takeWhile isDigit) = value (s.takeWhile isDigit) := by
  induction s with
  | nil => rfl
  | cons c s ih =>
    by_cases h : c = 48
    · subst h
      have hd : isDigit 48 = true := by decide
      rw [List.dropWhile_cons, if_pos (by simp), ih, List.takeWhile_cons, if_pos hd]
      simp [value]
    · rw [List.dropWhile_cons, if_neg (by simpa using h)]

theorem value_number (s : Str) : value (number s) = value (s.takeWhile isDigit) := by
  rw [← value_drop_zeros]
  unfold number
  split
  · rename_i h; rw [h]; rfl
  · rename_i h; rw [h]

theorem number_value_lt (s t : Str) : value (s.takeWhile isDigit) < value (t.takeWhile isDigit) ↔
    (number s).length < (number t).length ∨
      ((number s).length = (number t).length ∧ digitsLt (number s) (number t) = true) := by
  rw [← value_number s, ← value_number t]
  have ds := number_digits s
  have dt := number_digits t
  have ns := number_normal s
  have nt := number_normal t
  rcases Nat.lt_trichotomy (number s).length (number t).length with h | h | h
  · simp [h, value_len _ _ ds dt ns nt h]
  · simp [h, (value_cmp _ _ ds dt h).1]
  · have := value_len _ _ dt ds nt ns h
    constructor
    · intro h'; omega
    · rintro (h' | h') <;> omega

theorem number_value_eq (s t : Str) : value (s.takeWhile isDigit) = value (t.takeWhile isDigit) ↔
    number s = number t := by
  rw [← value_number s, ← value_number t]
  have ds := number_digits s
  have dt := number_digits t
  have ns := number_normal s
  have nt := number_normal t
  constructor
  · intro e
    rcases Nat.lt_trichotomy (number s).length (number t).length with h | h | h
    · have := value_len _ _ ds dt ns nt h; omega
    · exact (value_cmp _ _ ds dt h).2 e
    · have := value_len _ _ dt ds nt ns h; omega
  · intro h; rw [h]

theorem key_nil (cs : Bool) : key cs [] = [] := by rw [key.eq_def]

theorem key_digit (cs : Bool) (c : UInt8) (s : Str) (h : isDigit c = true) : key cs (c :: s) =
    toLex (0, (value ((c :: s).takeWhile isDigit) : ℤ)) :: key cs (afterNumber (c :: s)) := by
  conv_lhs => rw [key.eq_def]
  simp only [h, dite_eq_ite, if_true]

theorem charKey_eq (cs : Bool) (c : UInt8) : charCode cs c = charKey cs c := by
  have hc := c.toNat_lt
  unfold charCode charKey charVal toLower
  cases cs with
  | true => simp
  | false =>
    by_cases h : 65 ≤ c ∧ c ≤ 90
    · have h1 := UInt8.le_iff_toNat_le.mp h.1
      have h2 := UInt8.le_iff_toNat_le.mp h.2
      simp only [UInt8.reduceToNat] at h1 h2
      have : (c + 32).toNat = c.toNat + 32 := by rw [UInt8.toNat_add]; simp; omega
      simp [h.1, h.2, this]
    · have h' : ¬ ((decide (65 ≤ c) && decide (c ≤ 90)) = true) := by simpa using h
      simp only [h, and_false, if_false, h', Bool.false_eq_true]

theorem key_char (cs : Bool) (c : UInt8) (s : Str) (h : isDigit c ≠ true) : key cs (c :: s) =
    toLex (1, charKey cs c) :: key cs s := by
  conv_lhs => rw [key.eq_def]
  simp [h, charKey_eq]

theorem key_ne_nil (cs : Bool) (c : UInt8) (s : Str) : key cs (c :: s) ≠ [] := by
  by_cases h : isDigit c = true
  · rw [key_digit _ _ _ h]; simp
  · rw [key_char _ _ _ h]; simp

theorem key_eq_nil (cs : Bool) (s : Str) : key cs s = [] ↔ s = [] := by
  cases s with
  | nil => simp [key_nil]
  | cons c s => simp [key_ne_nil]

theorem toLex_lt (a b : ℕ) (x y : ℤ) :
    (toLex (a, x) : ℕ ×ₗ ℤ) < toLex (b, y) ↔ a < b ∨ a = b ∧ x < y := Prod.Lex.toLex_lt_toLex

theorem toLex_eq (a b : ℕ) (x y : ℤ) :
    (toLex (a, x) : ℕ ×ₗ ℤ) = toLex (b, y) ↔ a = b ∧ x = y := by
  rw [toLex_inj, Prod.mk.injEq]

/-- Where the keys of two strings differ before either ends, the keys decide. -/
theorem natLt_key (cs : Bool) : ∀ (n : Nat) (l1 l2 : Str) (s1 s2 : Nat), l1.length ≤ n →
    ¬ key cs l1 <+: key cs l2 → ¬ key cs l2 <+: key cs l1 →
    (natLt cs l1 l2 s1 s2 = true ↔ key cs l1 < key cs l2) := by
  intro n
  induction n with
  | zero =>
    intro l1 l2 s1 s2 hl h
    have e : l1 = [] := List.length_eq_zero_iff.mp (by omega)
    subst e
    simp [key_nil] at h
  | succ n ih =>
    intro l1 l2 s1 s2 hl h1 h2
    cases l1 with
    | nil => simp [key_nil] at h1
    | cons a as =>
      cases l2 with
      | nil => simp [key_nil] at h2
      | cons b bs =>
        rw [natLt_cons]
        by_cases ha : isDigit a = true
        · have hlt := afterNumber_lt (s := as) ha
          by_cases hb : isDigit b = true
          · rw [if_pos ha, if_pos hb]
            rw [key_digit _ _ _ ha, key_digit _ _ _ hb] at *
            rw [List.cons_lt_cons_iff, toLex_lt, toLex_eq]
            simp only [Nat.lt_irrefl, false_or, true_and, Nat.cast_lt, Nat.cast_inj]
            by_cases hn : number (a :: as) = number (b :: bs)
            · rw [if_pos hn]
              have hv := (number_value_eq (a :: as) (b :: bs)).mpr hn
              rw [hv] at h1 h2 ⊢
              rw [List.prefix_cons_inj] at h1 h2
              simp only [Nat.lt_irrefl, false_or, true_and]
              generalize (if s1 = 0 then zeros (a :: as) else s1) = z1
              generalize (if s2 = 0 then zeros (b :: bs) else s2) = z2
              split
              · exact ih _ _ _ _ (by omega) h1 h2
              · exact ih _ _ _ _ (by omega) h1 h2
            · rw [if_neg hn]
              have hv : value ((a :: as).takeWhile isDigit) ≠ value ((b :: bs).takeWhile isDigit) :=
                fun e => hn ((number_value_eq _ _).mp e)
              simp only [hv, false_and, or_false, number_value_lt]
              split
              · rename_i hne
                simp [hne]
              · rename_i he
                simp only [ne_eq, not_not] at he
                simp [he]
          · rw [if_pos ha, if_neg hb, key_digit _ _ _ ha, key_char _ _ _ hb, List.cons_lt_cons_iff, toLex_lt]
            simp
        · by_cases hb : isDigit b = true
          · rw [if_neg ha, if_pos hb, key_digit _ _ _ hb, key_char _ _ _ ha, List.cons_lt_cons_iff, toLex_lt,
              toLex_eq]
            simp
          · rw [if_neg ha, if_neg hb]
            rw [key_char _ _ _ ha, key_char _ _ _ hb] at *
            rw [List.cons_lt_cons_iff, toLex_lt, toLex_eq]
            by_cases hk : charKey cs a = charKey cs b
            · rw [if_pos hk]
              rw [hk] at h1 h2 ⊢
              rw [List.prefix_cons_inj] at h1 h2
              simp only [false_or, true_and, lt_irrefl]
              exact ih _ _ _ _ (by simp only [List.length_cons] at hl; omega) h1 h2
            · rw [if_neg hk]
              simp [hk]

/-! ### Strings without padding -/

theorem noPadding_suffix {p s : Str} (h : NoPadding (p ++ s)) (hp : ∀ p' c, p = p' ++ [c] → isDigit c = true →
    ∀ d q, s = 48 :: d :: q → isDigit d = true → False) : NoPadding s := by
  intro u d q e hd
  obtain ⟨p', c, e1, hc⟩ := h (p ++ u) d q (by rw [e]; simp) hd
  rcases List.eq_nil_or_concat u with rfl | ⟨u', x, rfl⟩
  · simp only [List.append_nil] at e1
    exact absurd (hp p' c e1 hc d q (by simpa using e) hd) (by simp)
  · rw [List.concat_eq_append, ← List.append_assoc] at e1
    obtain ⟨_, e2⟩ := List.append_inj_right' e1 (by simp) |> fun h => (⟨trivial, h⟩ : True ∧ _)
    refine ⟨u', x, by simp, ?_⟩
    simp only [List.cons.injEq, and_true] at e2
    rw [e2]; exact hc

theorem noPadding_tail {c : UInt8} {s : Str} (h : NoPadding (c :: s)) (hc : isDigit c ≠ true) : NoPadding s := by
  refine noPadding_suffix (p := [c]) h ?_
  intro p' x e hx
  have : c = x := by
    have := List.append_inj_right' (show ([] : Str) ++ [c] = p' ++ [x] from e) rfl
    simpa using this
  exact absurd (this ▸ hx) hc

theorem afterNumber_head (s : Str) (d : UInt8) (q : Str) (h : afterNumber s = d :: q) : isDigit d ≠ true := by
  have := List.head_dropWhile_not (l := s) isDigit (by unfold afterNumber at h; rw [h]; simp)
  unfold afterNumber at h
  simp only [h, List.head_cons] at this
  simp [this]

theorem noPadding_after {s : Str} (h : NoPadding s) : NoPadding (afterNumber s) := by
  have e : s = s.takeWhile isDigit ++ afterNumber s := (List.takeWhile_append_dropWhile).symm
  rw [e] at h
  refine noPadding_suffix h ?_
  intro _ _ _ _ d q e2 _
  exact absurd (show isDigit 48 = true by decide) (afterNumber_head s 48 _ e2)

theorem zeros_of_noPadding {a : UInt8} {s : Str} (h : NoPadding (a :: s)) :
    zeros (a :: s) = if number (a :: s) = [48] ∧ a = 48 then 1 else 0 := by
  by_cases ha : a = 48
  · subst ha
    cases s with
    | nil => decide
    | cons b s =>
      have hb : isDigit b ≠ true := by
        intro hb
        obtain ⟨p', c, e, _⟩ := h [] b s rfl hb
        simp at e
      have hb0 : b ≠ 48 := by rintro rfl; exact hb (by decide)
      have e1 : number (48 :: b :: s) = [48] := by
        unfold number
        rw [List.dropWhile_cons, if_pos (by simp), List.dropWhile_cons, if_neg (by simpa using hb0),
          List.takeWhile_cons, if_neg hb]
      rw [e1]
      simp only [zeros]
      rw [List.takeWhile_cons, if_pos (by simp), List.takeWhile_cons, if_neg (by simpa using hb0)]
      rfl
  · simp only [zeros]
    rw [List.takeWhile_cons, if_neg (by simpa using ha)]
    simp [ha]

/-- A number that starts with a digit other than zero is not zero. -/
theorem number_head {a : UInt8} {s : Str} (hd : isDigit a = true) (h : number (a :: s) = [48]) : a = 48 := by
  by_contra ha
  unfold number at h
  rw [List.dropWhile_cons, if_neg (by simpa using ha), List.takeWhile_cons, if_pos hd] at h
  simp only [List.cons.injEq] at h
  exact ha h.1

theorem natLt_noPadding (cs : Bool) : ∀ (n : Nat) (l1 l2 : Str), l1.length ≤ n → NoPadding l1 → NoPadding l2 →
    (natLt cs l1 l2 0 0 = true ↔ key cs l1 < key cs l2) := by
  intro n
  induction n with
  | zero =>
    intro l1 l2 hl _ _
    have e : l1 = [] := List.length_eq_zero_iff.mp (by omega)
    subst e
    rw [natLt_end _ _ _ _ _ (Or.inl rfl), key_nil]
    cases l2 with
    | nil => simp [key_nil]
    | cons b bs =>
      have : key cs (b :: bs) ≠ [] := key_ne_nil _ _ _
      cases hk : key cs (b :: bs) with
      | nil => exact absurd hk this
      | cons => simp
  | succ n ih =>
    intro l1 l2 hl n1 n2
    cases l1 with
    | nil =>
      rw [natLt_end _ _ _ _ _ (Or.inl rfl), key_nil]
      cases l2 with
      | nil => simp [key_nil]
      | cons b bs =>
        have : key cs (b :: bs) ≠ [] := key_ne_nil _ _ _
        cases hk : key cs (b :: bs) with
        | nil => exact absurd hk this
        | cons => simp
    | cons a as =>
      cases l2 with
      | nil =>
        rw [natLt_end _ _ _ _ _ (Or.inr rfl), key_nil]
        simp
      | cons b bs =>
        rw [natLt_cons]
        by_cases ha : isDigit a = true
        · have hlt := afterNumber_lt (s := as) ha
          by_cases hb : isDigit b = true
          · rw [if_pos ha, if_pos hb]
            rw [key_digit _ _ _ ha, key_digit _ _ _ hb]
            rw [List.cons_lt_cons_iff, toLex_lt, toLex_eq]
            simp only [Nat.lt_irrefl, false_or, true_and, Nat.cast_lt, Nat.cast_inj]
            by_cases hn : number (a :: as) = number (b :: bs)
            · rw [if_pos hn]
              have hv := (number_value_eq (a :: as) (b :: bs)).mpr hn
              have hz : zeros (a :: as) = zeros (b :: bs) := by
                rw [zeros_of_noPadding n1, zeros_of_noPadding n2, hn]
                by_cases h0 : number (b :: bs) = [48]
                · simp [number_head hb h0, number_head ha (hn.trans h0)]
                · simp [h0]
              simp only [if_true, hz, hv, Nat.lt_irrefl, false_or, true_and]
              exact ih _ _ (by omega) (noPadding_after n1) (noPadding_after n2)
            · rw [if_neg hn]
              have hv : value ((a :: as).takeWhile isDigit) ≠ value ((b :: bs).takeWhile isDigit) :=
                fun e => hn ((number_value_eq _ _).mp e)
              simp only [hv, false_and, or_false, number_value_lt]
              split
              · rename_i hne
                simp [hne]
              · rename_i he
                simp only [ne_eq, not_not] at he
                simp [he]
          · rw [if_pos ha, if_neg hb, key_digit _ _ _ ha, key_char _ _ _ hb, List.cons_lt_cons_iff, toLex_lt]
            simp
        · by_cases hb : isDigit b = true
          · rw [if_neg ha, if_pos hb, key_digit _ _ _ hb, key_char _ _ _ ha, List.cons_lt_cons_iff, toLex_lt,
              toLex_eq]
            simp
          · rw [if_neg ha, if_neg hb]
            rw [key_char _ _ _ ha, key_char _ _ _ hb]
            rw [List.cons_lt_cons_iff, toLex_lt, toLex_eq]
            by_cases hk : charKey cs a = charKey cs b
            · rw [if_pos hk]
              simp only [hk, false_or, true_and, lt_irrefl]
              exact ih _ _ (by simp only [List.length_cons] at hl; omega) (noPadding_tail n1 ha)
                (noPadding_tail n2 hb)
            · rw [if_neg hk]
              simp [hk]

end Verif.Cmdlib
