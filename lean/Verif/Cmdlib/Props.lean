import Verif.Cmdlib.NatLemmas

/-! Properties C61–C64 and C73. -/

namespace Verif.Cmdlib

open Verif Verif.Cmdlib.Spec

/-! ### C61: the checksum -/

/-- C61. For every message, whatever memory follows it, the table-driven checksum of its bytes is the remainder
of bitwise CRC-16/CCITT division. -/
theorem crcBlock_correct (msg rest : List (BitVec 8)) :
    crcBlock (msg ++ rest) msg.length = .ok (Spec.crc msg) := by
  unfold crcBlock
  rw [if_neg (by omega)]
  exact crcLoop_eq rest msg 0xffff

/-- The checksum of "123456789" under CRC-16/CCITT with initial value 0xffff is the published 0x29b1. -/
example : crcBlock [0x31, 0x32, 0x33, 0x34, 0x35, 0x36, 0x37, 0x38, 0x39] 9 = .ok 0x29b1 := by decide +kernel

/-- Two messages of one length that differ in exactly one byte have different checksums: no single damaged byte
goes unnoticed. -/
theorem crc_detects_one_byte (p q : List (BitVec 8)) (a b : BitVec 8) (h : a ≠ b) :
    crcBlock (p ++ a :: q) (p ++ a :: q).length ≠ crcBlock (p ++ b :: q) (p ++ b :: q).length := by
  have e1 := crcBlock_correct (p ++ a :: q) []
  have e2 := crcBlock_correct (p ++ b :: q) []
  simp only [List.append_nil] at e1 e2
  rw [e1, e2]
  intro e
  simp only [Outcome.ok.injEq, Spec.crc, List.flatMap_append, List.flatMap_cons, List.foldl_append] at e
  have inj0 : ∀ x : BitVec 16, shift0 x = 0 → x = 0 := by
    intro x hx
    have hall : ∀ i, i < 16 → x.getLsbD i = false := by
      rw [shift0_eq] at hx
      by_cases hm : x.msb = true
      · have := congrArg (fun v => v.getLsbD 0) hx
        simp [hm] at this
      · have hm' : x.msb = false := by simpa using hm
        intro i hi
        by_cases h15 : i = 15
        · subst h15
          rw [BitVec.msb_eq_getLsbD_last] at hm'
          exact hm'
        · have := congrArg (fun v => v.getLsbD (i + 1)) hx
          have h1 : i + 1 < 16 := by omega
          rw [BitVec.getLsbD_eq_getElem hi]
          simpa [hm', h1] using this
    apply BitVec.eq_of_getLsbD_eq
    intro i hi
    simp [hall i hi]
  have inj : ∀ x y : BitVec 16, ∀ bit, shiftIn x bit = shiftIn y bit → x = y := by
    intro x y bit hxy
    rw [shiftIn_eq, shiftIn_eq] at hxy
    have h0 : shift0 ((x ^^^ top bit) ^^^ (y ^^^ top bit)) = 0 := by rw [shift0_xor, hxy, BitVec.xor_self]; rfl
    have := inj0 _ h0
    have h2 : (x ^^^ top bit) ^^^ (y ^^^ top bit) = x ^^^ y := by
      rw [BitVec.xor_comm y, ← BitVec.xor_assoc, BitVec.xor_assoc x, BitVec.xor_self, BitVec.xor_zero]
    rw [h2] at this
    rw [← BitVec.xor_eq_zero_iff]; exact this
  have injF : ∀ (bs : List Bool) (x y : BitVec 16), bs.foldl shiftIn x = bs.foldl shiftIn y → x = y := by
    intro bs
    induction bs with
    | nil => intro x y h; exact h
    | cons b bs ih => intro x y h; exact inj _ _ _ (ih _ _ h)
  have e3 := injF _ _ _ e
  rw [bits_foldl, bits_foldl] at e3
  have e4 : ∀ x y : BitVec 16, eight0 x = eight0 y → x = y := by
    intro x y hxy
    have h0 : eight0 (x ^^^ y) = 0 := by rw [eight0_xor, hxy, BitVec.xor_self]; rfl
    have := inj0 _ (inj0 _ (inj0 _ (inj0 _ (inj0 _ (inj0 _ (inj0 _ (inj0 _ h0)))))))
    rw [← BitVec.xor_eq_zero_iff]; exact this
  have e5 := e4 _ _ e3
  apply h
  apply BitVec.eq_of_getLsbD_eq
  intro i hi
  have := congrArg (fun v => v.getLsbD (i + 8)) e5
  simp only [BitVec.getLsbD_xor, BitVec.getLsbD_shiftLeft, BitVec.getLsbD_setWidth] at this
  have h16 : i + 8 < 16 := by omega
  have h16' : i < 16 := by omega
  simpa [h16, h16'] using this

/-- A negative count is not caught: `bsputil --check` passes `dentdata.size() - 1`, which is `-1` for an empty
entity lump (bsputil/bsputil.cc:1318). -/
theorem crcBlock_negative (mem : List (BitVec 8)) : crcBlock mem (-1) = .ub := rfl

/-! ### C62: ignoring case -/

/-- C62. `string_iequals` holds exactly for texts that are the same up to the case of ASCII letters. -/
theorem iequals_spec (a b : Str) : iequals a b = true ↔ SameText a b := by
  rw [iequals_iff, sameText_iff]

/-- C62. It is an equivalence relation. -/
theorem iequals_equivalence : Equivalence (fun a b => iequals a b = true) := by
  refine ⟨fun a => ?_, fun {a b} h => ?_, fun {a b c} h1 h2 => ?_⟩
  · rw [iequals_iff]
  · rw [iequals_iff] at *; exact h.symm
  · rw [iequals_iff] at *; exact h1.trans h2

/-- C62. Strings that `string_iequals` calls equal have equal hashes. -/
theorem iequals_hash (a b : Str) (h : iequals a b = true) : ihash a = ihash b :=
  hash_map a b _ ((iequals_iff a b).mp h)

example : iequals "Foo_1".toUTF8.toList "fOO_1".toUTF8.toList = true ∧
    iequals "Foo[".toUTF8.toList "foo{".toUTF8.toList = false := by decide +kernel

/-- C62, for the comparison the hashed containers use: strings without NUL bytes compare equal exactly when they
are the same up to case, and then have equal hashes. -/
theorem container_equal_hash_partial (a b : Str) (ha : (0 : UInt8) ∉ a) (hb : (0 : UInt8) ∉ b) :
    (iequalC a b = true ↔ SameText a b) ∧ (iequalC a b = true → ihash a = ihash b) := by
  have ca : cstr a = a := cstr_of_noNul a (fun c hc e => ha (e ▸ hc))
  have cb : cstr b = b := cstr_of_noNul b (fun c hc e => hb (e ▸ hc))
  have key : iequalC a b = true ↔ a.map toLower = b.map toLower := by
    unfold iequalC
    rw [ca, cb, beq_iff_eq]
    exact strcasecmp_zero a b (fun c hc e => ha (e ▸ hc)) (fun c hc e => hb (e ▸ hc))
  exact ⟨by rw [key, sameText_iff], fun h => hash_map a b _ (key.mp h)⟩

example : (0 : UInt8) ∉ "Func_Wall".toUTF8.toList ∧
    iequalC "Func_Wall".toUTF8.toList "func_wall".toUTF8.toList = true := by decide +kernel

/-- With NUL bytes the comparison and the hash disagree. -/
theorem container_equal_hash_nul : ∃ a b : Str, iequalC a b = true ∧ ihash a ≠ ihash b :=
  ⟨[65], [65, 0], by decide +kernel⟩

/-- The comparison is an equivalence relation on all strings, NUL bytes or not. -/
theorem container_equal_equivalence : Equivalence (fun a b => iequalC a b = true) := by
  have key : ∀ a b, iequalC a b = true ↔ (cstr a).map toLower = (cstr b).map toLower := by
    intro a b
    unfold iequalC
    rw [beq_iff_eq]
    exact strcasecmp_zero _ _ (cstr_ne_zero a) (cstr_ne_zero b)
  refine ⟨fun a => (key _ _).mpr rfl, fun {a b} h => ?_, fun {a b c} h1 h2 => ?_⟩
  · rw [key] at *; exact h.symm
  · rw [key] at *; exact h1.trans h2

/-- C73. `case_insensitive_less` orders strings strictly and weakly: it is irreflexive and transitive, and exactly
one of `a` before `b`, `b` before `a`, `a` equal to `b` ignoring case holds. -/
theorem iless_strict_weak (a b c : Str) :
    ilessC a a = false ∧ (ilessC a b = true → ilessC b c = true → ilessC a c = true) ∧
      (ilessC a b = true ∨ ilessC b a = true ∨ iequalC a b = true) ∧
      (ilessC a b = true → ilessC b a = false ∧ iequalC a b = false) ∧
      (iequalC a b = true → ilessC a c = ilessC b c ∧ ilessC c a = ilessC c b) := by
  have key : ∀ x y, ilessC x y = true ↔
      (cstr x).map (fun c => (toLower c).toNat) < (cstr y).map (fun c => (toLower c).toNat) := by
    intro x y
    unfold ilessC
    rw [decide_eq_true_eq]
    exact strcasecmp_neg _ _ (cstr_ne_zero x) (cstr_ne_zero y)
  have keq : ∀ x y, iequalC x y = true ↔
      (cstr x).map (fun c => (toLower c).toNat) = (cstr y).map (fun c => (toLower c).toNat) := by
    intro x y
    unfold iequalC
    rw [beq_iff_eq, strcasecmp_zero _ _ (cstr_ne_zero x) (cstr_ne_zero y)]
    constructor
    · intro h
      have := congrArg (List.map UInt8.toNat) h
      simpa [List.map_map, Function.comp_def] using this
    · intro h
      have h' : ((cstr x).map toLower).map UInt8.toNat = ((cstr y).map toLower).map UInt8.toNat := by
        simpa [List.map_map, Function.comp_def] using h
      exact (List.map_inj_right (fun _ _ => UInt8.toNat_inj.mp)).mp h'
  have hlast : iequalC a b = true → ilessC a c = ilessC b c ∧ ilessC c a = ilessC c b := by
    intro h
    have e := (keq a b).mp h
    constructor <;> (rw [Bool.eq_iff_iff]; simp only [key, e])
  refine ⟨?_, ?_, ?_, ?_, hlast⟩ <;> simp only [← Bool.not_eq_true, key, keq]
  · exact lt_irrefl _
  · exact fun h1 h2 => lt_trans h1 h2
  · rcases lt_trichotomy ((cstr a).map (fun c => (toLower c).toNat))
      ((cstr b).map (fun c => (toLower c).toNat)) with h | h | h
    · exact Or.inl h
    · exact Or.inr (Or.inr h)
    · exact Or.inr (Or.inl h)
  · exact fun h => ⟨lt_asymm h, ne_of_lt h⟩

/-! ### C63: replacing -/

/-- C63. For a non-empty pattern the loop ends, after at most one round for each byte and one more, and gives what
splitting the string at the leftmost non-overlapping occurrences of the pattern and joining the parts with the
replacement gives. -/
theorem replaceAll_correct (s pat rep : Str) (hp : pat ≠ []) :
    ∃ parts, Split pat s parts ∧ join pat parts = s ∧
      ∀ fuel, s.length < fuel → replaceAll fuel s pat rep = some (join rep parts) := by
  have hne : pat.isEmpty = false := by simpa using hp
  obtain ⟨parts, hs, _⟩ := replaceLoop_eq pat rep hp (s.length + 1) [] s (by omega)
  refine ⟨parts, hs, split_join hs, ?_⟩
  intro fuel hf
  obtain ⟨parts', hs', hr⟩ := replaceLoop_eq pat rep hp fuel [] s hf
  have : parts' = parts := split_unique hs' hs
  subst this
  unfold replaceAll
  rw [hne]
  simpa using hr

/-- There is only one such splitting. -/
theorem replace_split_unique (s pat : Str) (p1 p2 : List Str) (h1 : Split pat s p1)
    (h2 : Split pat s p2) : p1 = p2 := split_unique h1 h2

/-- C63. An empty pattern leaves the string alone. -/
theorem replaceAll_empty (fuel : Nat) (s rep : Str) : replaceAll fuel s [] rep = some s := rfl

/-- Overlapping occurrences, and a replacement that contains the pattern. -/
example : replaceAll 10 [97, 97, 97, 98] [97, 97] [97, 97, 97] = some [97, 97, 97, 97, 98] := by decide +kernel

/-! ### C64: the natural ordering -/

/-- C64, first part: irreflexive and asymmetric on all strings. -/
theorem natural_asymm_partial (cs : Bool) (a b : Str) :
    naturalLess cs a a = false ∧ (naturalLess cs a b = true → naturalLess cs b a = false) := by
  have as : ∀ x y, naturalLess cs x y = true → naturalLess cs y x = false := fun x y h =>
    natLt_asymm_aux cs _ _ _ 0 0 (Nat.le_refl _) h
  refine ⟨?_, as a b⟩
  cases h : naturalLess cs a a with
  | false => rfl
  | true => exact absurd h (by rw [as a a h]; simp)

example : naturalLess true "tex2".toUTF8.toList "tex10".toUTF8.toList = true ∧
    naturalLess true "TEX2".toUTF8.toList "tex1".toUTF8.toList = true ∧
    naturalLess false "TEX2".toUTF8.toList "tex1".toUTF8.toList = false := by decide +kernel

/-- C64, second part: among strings whose numbers have no superfluous leading zeros the ordering is the one of
their keys: numbers by value, characters by code, numbers before characters, a prefix before its extensions. -/
theorem natural_key_partial (cs : Bool) (a b : Str) (ha : NoPadding (cstr a)) (hb : NoPadding (cstr b)) :
    naturalLess cs a b = true ↔ key cs (cstr a) < key cs (cstr b) :=
  natLt_noPadding cs _ _ _ (Nat.le_refl _) ha hb

/-- C64, second part: so there it is transitive, and so is being unordered: a strict weak order. -/
theorem natural_strict_weak_partial (cs : Bool) (a b c : Str) (ha : NoPadding (cstr a)) (hb : NoPadding (cstr b))
    (hc : NoPadding (cstr c)) :
    (naturalLess cs a b = true → naturalLess cs b c = true → naturalLess cs a c = true) ∧
      (naturalLess cs a b = false → naturalLess cs b a = false → naturalLess cs b c = false →
        naturalLess cs c b = false → naturalLess cs a c = false ∧ naturalLess cs c a = false) := by
  simp only [← Bool.not_eq_true, natural_key_partial cs _ _ ha hb, natural_key_partial cs _ _ hb ha,
    natural_key_partial cs _ _ hb hc, natural_key_partial cs _ _ hc hb, natural_key_partial cs _ _ ha hc,
    natural_key_partial cs _ _ hc ha]
  refine ⟨fun h1 h2 => lt_trans h1 h2, fun h1 h2 h3 h4 => ?_⟩
  have e1 := le_antisymm (not_lt.mp h2) (not_lt.mp h1)
  have e2 := le_antisymm (not_lt.mp h4) (not_lt.mp h3)
  rw [e1, e2]
  exact ⟨lt_irrefl _, lt_irrefl _⟩

theorem noPadding_tex10 : NoPadding (cstr [116, 101, 120, 49, 48]) := by
  intro p d q e hd
  have e' : ([116, 101, 120, 49, 48] : Str) = p ++ 48 :: d :: q := e
  match p, e' with
  | [], e => simp at e
  | [_], e => simp at e
  | [_, _], e => simp at e
  | [_, _, _], e => simp at e
  | [_, _, _, _], e => simp at e
  | _ :: _ :: _ :: _ :: _ :: p, e => simp at e

/-- C64, third part: on all strings, leading zeros or not, the keys decide as soon as they differ before one of the
strings ends. -/
theorem natural_diverging_partial (cs : Bool) (a b : Str) (h1 : ¬ key cs (cstr a) <+: key cs (cstr b))
    (h2 : ¬ key cs (cstr b) <+: key cs (cstr a)) :
    naturalLess cs a b = true ↔ key cs (cstr a) < key cs (cstr b) :=
  natLt_key cs _ _ _ 0 0 (Nat.le_refl _) h1 h2

/-- The full claim fails: "00" is before "00a0", "00a0" before "0a1", and "00" is not before "0a1". -/
theorem natural_not_transitive : ∃ a b c : Str, naturalLess true a b = true ∧ naturalLess true b c = true ∧
    naturalLess true a c = false :=
  ⟨[48, 48], [48, 48, 97, 48], [48, 97, 49], by decide +kernel⟩

/-- And being unordered is not transitive: "01a2", "1a02" and "01a02". -/
theorem natural_unordered_not_transitive : ∃ a b c : Str, naturalLess true a b = false ∧
    naturalLess true b a = false ∧ naturalLess true b c = false ∧ naturalLess true c b = false ∧
    naturalLess true a c = true :=
  ⟨[48, 49, 97, 50], [49, 97, 48, 50], [48, 49, 97, 48, 50], by decide +kernel⟩

end Verif.Cmdlib
