import Verif.EntData.Lemmas

/-! Properties of the entity text format: C18 and C19. -/

namespace Verif.EntData

/-! ### C18 -/

/-- **C18**: writing a non-empty list of entities to the entity string and parsing it back yields the
same entities with the same keys and values in the same order. `EntityOk` says which strings can stand
between double quotes. (The empty list gives an empty entity string, on which constructing the parser
is undefined: `empty_entity_string_undefined`.) -/
theorem entities_roundtrip (es : List Dict) (hne : es ≠ []) (hok : ∀ d ∈ es, EntityOk d) :
    parseText (write es) = .ok es := by
  obtain ⟨s, hs⟩ := parseInto_write es [] 1 [] false [] hok (.inl rfl)
  have hw : write es ≠ [] := by
    cases es with
    | nil => exact absurd rfl hne
    | cons d es => simp [write, writeEntity]
  simp only [parseText, hw, if_false]
  simp only [List.nil_append] at hs
  simp [Parser.ofString, hs]

/-- The empty entity string: `&view.front()` of an empty view. -/
theorem empty_entity_string_undefined : parseText (write []) = .ub := by simp [write, parseText]

/-- Why a written key may not end in a lone backslash: `a\` followed by `"` reads on into the value
(and the key `a\" ` that results ends in a space, see C19). -/
theorem key_ending_in_backslash_breaks : parseText (write [[([97, 92], [98])]]) = .ub := by
  decide +kernel

/-- Why a bare double quote cannot be written: `a"b` reads back as `a`, and its rest as the next key. -/
theorem bare_quote_breaks : parseText (write [[([107], [97, 34, 98])]]) ≠ .ok [[([107], [97, 34, 98])]] := by
  decide +kernel

-- {"classname" "a\"b"  "k" "c:\"} meets the hypotheses, with an escaped quote and a stray backslash
example : EntityOk [([99, 108], [97, 92, 34, 98]), ([107], [99, 58, 92])] := by
  refine ⟨by decide, ?_, ?_⟩
  · intro kv hkv
    rcases List.mem_cons.1 hkv with rfl | hkv
    · exact ⟨.plain (by decide) (by decide) (by decide) (.plain (by decide) (by decide) (by decide) .nil),
        by decide, ⟨99, rfl, by unfold Ink; decide⟩, ⟨108, rfl, by unfold Ink; decide⟩⟩
    · simp at hkv
      subst hkv
      exact ⟨.plain (by decide) (by decide) (by decide) .nil, by decide, ⟨107, rfl, by unfold Ink; decide⟩,
        ⟨107, rfl, by unfold Ink; decide⟩⟩
  · intro kv hkv
    rcases List.mem_cons.1 hkv with rfl | hkv
    · exact ⟨.inl (.plain (by decide) (by decide) (by decide) (.quote (by decide) (by decide)
        (.plain (by decide) (by decide) (by decide) .nil))), by decide⟩
    · simp at hkv
      subst hkv
      exact ⟨.inr ⟨[99, 58], rfl, .plain (by decide) (by decide) (by decide)
        (.plain (by decide) (by decide) (by decide) .nil)⟩, by decide⟩
example : parseText (write [[([99, 108], [97, 92, 34, 98]), ([107], [99, 58, 92])], []])
    = .ok [[([99, 108], [97, 92, 34, 98]), ([107], [99, 58, 92])], []] := by decide +kernel

/-! ### C19 -/

/-- White space in the sense of `isspace`. -/
def Space (b : UInt8) : Prop := b = 32 ∨ (9 ≤ b ∧ b ≤ 13)

theorem isSpace_true {b : UInt8} (h : Space b) : isSpace b = .ok true := by
  have h128 : ¬ (128 ≤ b) := by
    rw [UInt8.not_le]
    rcases h with rfl | ⟨-, h⟩
    · decide
    · exact UInt8.lt_of_le_of_lt h (by decide)
  rcases h with rfl | ⟨h1, h2⟩
  · decide
  · simp [isSpace, h128, h1, h2]

/-- **C19**, partial: a key with any leading white space, whose other end is not white space, is stored
without the leading white space and otherwise unchanged. Missing: trailing white space, for which the
property is false (`trailing_space_undefined`). -/
theorem key_trimmed_partial (ws k : Str) (hws : ∀ b ∈ ws, Space b)
    (hf : ∃ b, k.head? = some b ∧ Ink b) (hl : ∃ b, k.getLast? = some b ∧ Ink b) :
    trimKey (ws ++ k) = .ok k := by
  obtain ⟨b, hb, hib⟩ := hf
  obtain ⟨c, hc, hic⟩ := hl
  have h1 : trimFront (ws ++ k) = .ok k := by
    induction ws with
    | nil =>
      cases k with
      | nil => simp at hb
      | cons a k => simp at hb; subst hb; simp [trimFront, isSpace_ink hib]
    | cons w ws ih =>
      have := isSpace_true (hws w (by simp))
      simp [trimFront, this, ih (fun x hx => hws x (by simp [hx]))]
  have h2 : trimBack k = .ok k := by
    cases k with
    | nil => simp at hb
    | cons a k =>
      have hl : (a :: k).getLast (by simp) = c := by
        rw [List.getLast?_eq_some_getLast (by simp)] at hc; simpa using hc
      simp [trimBack, hl, isSpace_ink hic]
  simp [trimKey, h1, h2]

/-- **C19** fails for every key that ends in white space: the loop erases bytes at the wrong end until
the string is empty and then reads the last byte of an empty string. -/
theorem trailing_space_undefined (k : Str) (b : UInt8) (hb : Space b) (hk : ∀ c ∈ k, c < 128) :
    trimKey (k ++ [b]) = .ub := by
  have back : ∀ k : Str, trimBack (k ++ [b]) = .ub := by
    intro k
    induction k with
    | nil => simp [trimBack, isSpace_true hb]
    | cons a k ih =>
      have e : (a :: (k ++ [b])).getLast (by simp) = b := by
        rw [List.getLast_cons (by simp)]; simp
      simp only [List.cons_append, trimBack, e, isSpace_true hb, Outcome.ok_bind, if_true]
      exact ih
  have front : ∀ k : Str, (∀ c ∈ k, c < 128) →
      trimFront (k ++ [b]) = .ub ∨ ∃ k', trimFront (k ++ [b]) = .ok (k' ++ [b]) := by
    intro k hk
    induction k with
    | nil => left; simp [trimFront, isSpace_true hb]
    | cons a k ih =>
      have h128 : ¬ (128 ≤ a) := UInt8.not_le.2 (hk a (by simp))
      simp only [List.cons_append, trimFront, isSpace, h128, if_false, Outcome.ok_bind]
      split
      · exact ih (fun c hc => hk c (by simp [hc]))
      · exact .inr ⟨a :: k, rfl⟩
  rcases front k hk with h | ⟨k', h⟩
  · simp [trimKey, h]
  · simp [trimKey, h, back]

-- `\t a b` is stored as `a b`; a trailing space in the text of a map entity is undefined behaviour
example : trimKey [9, 32, 97, 32, 98] = .ok [97, 32, 98] := by decide +kernel
example : parseText [123, 10, 34, 97, 32, 34, 32, 34, 98, 34, 10, 125, 10] = .ub := by decide +kernel

end Verif.EntData
