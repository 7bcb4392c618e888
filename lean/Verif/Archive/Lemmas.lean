import Verif.Archive.Spec
import Verif.Cmdlib.Lemmas

namespace Verif.Archive

open Verif
open Verif.Cmdlib (Str iequalC cstr strcasecmp toLower)
open Verif.Cmdlib.Spec (SameText)

/-! ### Streams -/

theorem slice_length {bytes : List Byte} {off n : Nat} (h : off + n ≤ bytes.length) :
    (slice bytes off n).length = n := by
  simp only [slice, List.length_take, List.length_drop]; omega

theorem read_in {bytes : List Byte} {pos n : Nat} (h : pos + n ≤ bytes.length) :
    (Stream.mk bytes pos false).read n = (slice bytes pos n, ⟨bytes, pos + n, false⟩) := by
  have hl := slice_length h
  unfold slice at hl
  simp only [Stream.read, Bool.false_eq_true, if_false, slice, hl, Nat.lt_irrefl, decide_false]

theorem get_in {bytes : List Byte} {pos n : Nat} (h : pos + n ≤ bytes.length) :
    (Stream.mk bytes pos false).get n = (some (slice bytes pos n), ⟨bytes, pos + n, false⟩) := by
  simp only [Stream.get, read_in h, slice_length h, if_true]

theorem get_out {bytes : List Byte} {pos n : Nat} (h : bytes.length < pos + n) (hn : 0 < n) :
    ∃ q, (Stream.mk bytes pos false).get n = (none, ⟨bytes, q, true⟩) := by
  have hl : ((bytes.drop pos).take n).length < n := by
    simp only [List.length_take, List.length_drop]; omega
  refine ⟨pos + ((bytes.drop pos).take n).length, ?_⟩
  have hne : ((bytes.drop pos).take n).length ≠ n := by omega
  simp only [Stream.get, Stream.read, Bool.false_eq_true, if_false, if_neg hne, hl, decide_true]

theorem get_failed {s : Stream} {n : Nat} (hs : s.failed = true) (hn : 0 < n) : s.get n = (none, s) := by
  have : ¬ (0 = n) := by omega
  simp only [Stream.get, Stream.read, hs, if_true, List.length_nil, if_neg this]

theorem get_failed' (bytes : List Byte) (q n : Nat) (hn : 0 < n) :
    (Stream.mk bytes q true).get n = (none, ⟨bytes, q, true⟩) := get_failed rfl hn

/-- After a field that could not be read, no later one can be. -/
theorem get_none {s : Stream} {n : Nat} (hn : 0 < n) (h : (s.get n).1 = none) : (s.get n).2.failed = true := by
  obtain ⟨bytes, pos, failed⟩ := s
  cases failed with
  | true => rw [get_failed' _ _ _ hn]
  | false =>
    by_cases hb : pos + n ≤ bytes.length
    · rw [get_in hb] at h; cases h
    · obtain ⟨q, hq⟩ := get_out (bytes := bytes) (pos := pos) (by omega) hn
      rw [hq]

theorem seek_ok (bytes : List Byte) (pos p : Nat) : (Stream.mk bytes pos false).seek p = ⟨bytes, p, false⟩ := rfl

/-! ### Entries -/

/-- What one round of a loop over the directory does. -/
structure Round (y : Layout) (bytes : List Byte)
    (entry : List (Str × Nat × Nat) → Stream → Outcome (List (Str × Nat × Nat) × Stream)) : Prop where
  inside : ∀ files pos, pos + y.width ≤ bytes.length → (0 : Byte) ∈ slice bytes (pos + y.nameAt) y.nameLen →
    entry files ⟨bytes, pos, false⟩ =
      .ok (insert files (entryAt y bytes pos).name ((entryAt y bytes pos).offset, (entryAt y bytes pos).size),
        ⟨bytes, pos + y.width, false⟩)
  noNul : ∀ files pos, pos + y.width ≤ bytes.length → (0 : Byte) ∉ slice bytes (pos + y.nameAt) y.nameLen →
    entry files ⟨bytes, pos, false⟩ = .ub
  outside : ∀ files pos, bytes.length < pos + y.width → entry files ⟨bytes, pos, false⟩ = .ub

theorem cname_in {field : List Byte} (h : (0 : Byte) ∈ field) : cname field = .ok (textOf field) := by
  simp only [cname, h, if_true, textOf]

theorem cname_out {field : List Byte} (h : (0 : Byte) ∉ field) : cname field = .ub := by
  simp only [cname, h, if_false]

theorem pak_round (bytes : List Byte) : Round pakLayout bytes pakEntry where
  inside files pos h h0 := by
    simp only [pakLayout, Nat.add_zero] at h h0 ⊢
    unfold pakEntry
    simp only [get_in (show pos + 56 ≤ bytes.length by omega), get_in (show pos + 56 + 4 ≤ bytes.length by omega),
      get_in (show pos + 56 + 4 + 4 ≤ bytes.length by omega), use, Outcome.ok_bind, cname_in h0, Outcome.pure_eq,
      entryAt, u32At, Nat.add_zero, Nat.add_assoc, Nat.reduceAdd]
  noNul files pos h h0 := by
    simp only [pakLayout, Nat.add_zero] at h h0 ⊢
    unfold pakEntry
    simp only [get_in (show pos + 56 ≤ bytes.length by omega), use, Outcome.ok_bind, cname_out h0, Outcome.ub_bind]
  outside files pos h := by
    simp only [pakLayout] at h
    unfold pakEntry
    by_cases h1 : pos + 56 ≤ bytes.length
    · simp only [get_in h1, use, Outcome.ok_bind, cname]
      by_cases h0 : (0 : Byte) ∈ slice bytes pos 56
      · simp only [if_pos h0, Outcome.ok_bind]
        by_cases h2 : pos + 56 + 4 ≤ bytes.length
        · simp only [get_in h2, Outcome.ok_bind]
          obtain ⟨q, hq⟩ := get_out (bytes := bytes) (pos := pos + 56 + 4) (n := 4) (by omega) (by omega)
          simp only [hq, Outcome.ub_bind]
        · obtain ⟨q, hq⟩ := get_out (bytes := bytes) (pos := pos + 56) (n := 4) (by omega) (by omega)
          simp only [hq, Outcome.ub_bind]
      · simp only [if_neg h0, Outcome.ub_bind]
    · obtain ⟨q, hq⟩ := get_out (bytes := bytes) (pos := pos) (n := 56) (by omega) (by omega)
      simp only [hq, use, Outcome.ub_bind]

theorem wad_round (bytes : List Byte) : Round wadLayout bytes wadEntry where
  inside files pos h h0 := by
    simp only [wadLayout] at h h0 ⊢
    unfold wadEntry
    simp only [get_in (show pos + 4 ≤ bytes.length by omega), get_in (show pos + 4 + 4 ≤ bytes.length by omega),
      get_in (show pos + 4 + 4 + 4 ≤ bytes.length by omega),
      get_in (show pos + 4 + 4 + 4 + 1 ≤ bytes.length by omega),
      get_in (show pos + 4 + 4 + 4 + 1 + 1 ≤ bytes.length by omega), seek_ok,
      get_in (show pos + 4 + 4 + 4 + 1 + 1 + 2 + 16 ≤ bytes.length by omega), use, Outcome.ok_bind]
    have e : pos + 4 + 4 + 4 + 1 + 1 + 2 = pos + 16 := by omega
    simp only [e, cname_in h0, Outcome.ok_bind, Outcome.pure_eq, entryAt, u32At, Nat.add_zero, Nat.add_assoc,
      Nat.reduceAdd]
  noNul files pos h h0 := by
    simp only [wadLayout] at h h0 ⊢
    unfold wadEntry
    simp only [get_in (show pos + 4 ≤ bytes.length by omega), get_in (show pos + 4 + 4 ≤ bytes.length by omega),
      get_in (show pos + 4 + 4 + 4 ≤ bytes.length by omega),
      get_in (show pos + 4 + 4 + 4 + 1 ≤ bytes.length by omega),
      get_in (show pos + 4 + 4 + 4 + 1 + 1 ≤ bytes.length by omega), seek_ok,
      get_in (show pos + 4 + 4 + 4 + 1 + 1 + 2 + 16 ≤ bytes.length by omega), use, Outcome.ok_bind]
    have e : pos + 4 + 4 + 4 + 1 + 1 + 2 = pos + 16 := by omega
    simp only [e, cname_out h0, Outcome.ub_bind]
  outside files pos h := by
    simp only [wadLayout] at h
    unfold wadEntry
    have hs : ∀ s5 : Stream, (s5 = ⟨bytes, pos + 14, false⟩ ∨ s5.failed = true) →
        ((s5.seek (s5.pos + 2)).get 16).1 = none := by
      intro s5 h5
      rcases h5 with h5 | h5
      · subst h5
        rw [seek_ok]
        obtain ⟨q, hq⟩ := get_out (bytes := bytes) (pos := pos + 14 + 2) (n := 16) (by omega) (by omega)
        rw [hq]
      · have : (s5.seek (s5.pos + 2)) = s5 := by simp only [Stream.seek, h5, if_true]
        rw [this, get_failed h5 (by omega)]
    have key : ∀ (n : Nat) (hn : 0 < n) (p : Nat) (s : Stream), (s = ⟨bytes, p, false⟩ ∨ s.failed = true) →
        ((s.get n).2 = ⟨bytes, p + n, false⟩ ∨ (s.get n).2.failed = true) := by
      intro n hn p s h
      rcases h with h | h
      · subst h
        by_cases hb : p + n ≤ bytes.length
        · left; rw [get_in hb]
        · right
          obtain ⟨q, hq⟩ := get_out (bytes := bytes) (pos := p) (by omega) hn
          rw [hq]
      · right; rw [get_failed h hn]; exact h
    have := hs _ (key 1 (by omega) _ _ (key 1 (by omega) _ _ (key 4 (by omega) _ _ (key 4 (by omega) _ _
      (key 4 (by omega) pos _ (Or.inl rfl))))))
    simp only [this, use, Outcome.ub_bind]
/-! ### The directory -/

/-- The directory as the loops build it. -/
def build (files : List (Str × Nat × Nat)) (dir : List Entry) : List (Str × Nat × Nat) :=
  dir.foldl (fun f e => insert f e.name (e.offset, e.size)) files

theorem directory_succ (y : Layout) (bytes : List Byte) (start n : Nat) :
    directory y bytes start (n + 1) = entryAt y bytes start :: directory y bytes (start + y.width) n := by
  unfold directory
  rw [List.range_succ_eq_map, List.map_cons, List.map_map]
  congr 1
  apply List.map_congr_left
  intro i _
  simp only [Function.comp, Nat.succ_eq_add_one, Nat.mul_add, Nat.mul_one, Nat.add_assoc, Nat.add_comm y.width]

theorem sound_succ (y : Layout) (bytes : List Byte) (start n : Nat) :
    DirectorySound y bytes start (n + 1) ↔ (start + y.width ≤ bytes.length ∧
      (0 : Byte) ∈ slice bytes (start + y.nameAt) y.nameLen) ∧ DirectorySound y bytes (start + y.width) n := by
  unfold DirectorySound
  have shift : ∀ i, start + y.width * (i + 1) = start + y.width + y.width * i := by
    intro i; rw [Nat.mul_add, Nat.mul_one]; omega
  constructor
  · intro h
    refine ⟨by simpa using h 0 (by omega), ?_⟩
    intro i hi
    have := h (i + 1) (by omega)
    rw [shift (i + 1), shift i] at this
    exact this
  · rintro ⟨h0, h⟩ i hi
    cases i with
    | zero => simpa using h0
    | succ i =>
      have := h i (by omega)
      rw [shift (i + 1), shift i]
      exact this

theorem entries_sound {y : Layout} {bytes : List Byte}
    {entry : List (Str × Nat × Nat) → Stream → Outcome (List (Str × Nat × Nat) × Stream)} (R : Round y bytes entry)
    (n : Nat) : ∀ files pos, DirectorySound y bytes pos n →
      entries entry n files ⟨bytes, pos, false⟩ =
        .ok (build files (directory y bytes pos n), ⟨bytes, pos + y.width * n, false⟩) := by
  induction n with
  | zero => intro files pos _; simp [entries, directory, build]
  | succ n ih =>
    intro files pos h
    rw [sound_succ] at h
    obtain ⟨⟨h1, h2⟩, h3⟩ := h
    rw [entries, R.inside files pos h1 h2, Outcome.ok_bind, ih _ _ h3, directory_succ]
    simp only [build, List.foldl_cons, Nat.mul_add, Nat.mul_one, Nat.add_assoc, Nat.add_comm y.width]

theorem entries_unsound {y : Layout} {bytes : List Byte}
    {entry : List (Str × Nat × Nat) → Stream → Outcome (List (Str × Nat × Nat) × Stream)} (R : Round y bytes entry)
    (n : Nat) : ∀ files pos, ¬ DirectorySound y bytes pos n → entries entry n files ⟨bytes, pos, false⟩ = .ub := by
  induction n with
  | zero => intro files pos h; exact absurd (fun i hi => absurd hi (by omega)) h
  | succ n ih =>
    intro files pos h
    rw [sound_succ] at h
    rw [entries]
    by_cases h1 : pos + y.width ≤ bytes.length
    · by_cases h2 : (0 : Byte) ∈ slice bytes (pos + y.nameAt) y.nameLen
      · rw [R.inside files pos h1 h2, Outcome.ok_bind]
        exact ih _ _ (fun h3 => h ⟨⟨h1, h2⟩, h3⟩)
      · rw [R.noNul files pos h1 h2, Outcome.ub_bind]
    · rw [R.outside files pos (by omega), Outcome.ub_bind]

/-! ### Names -/

/-- The text two names are compared by. -/
def key (s : Str) : Str := (cstr s).map toLower

theorem cstr_mem {s : Str} {c : UInt8} (h : c ∈ cstr s) : c ≠ 0 := by
  have := List.mem_takeWhile_imp h
  simpa using this

theorem iequalC_key (a b : Str) : iequalC a b = true ↔ key a = key b := by
  unfold iequalC key
  rw [beq_iff_eq]
  exact Cmdlib.strcasecmp_zero _ _ (fun c hc e => cstr_mem hc e) (fun c hc e => cstr_mem hc e)

theorem noNul_cstr {s : Str} (h : (0 : UInt8) ∉ s) : cstr s = s :=
  Cmdlib.cstr_of_noNul s (fun _ hc e => h (e ▸ hc))

theorem sameText_key {a b : Str} (ha : (0 : UInt8) ∉ a) (hb : (0 : UInt8) ∉ b) : SameText a b ↔ key a = key b := by
  rw [Cmdlib.sameText_iff, key, key, noNul_cstr ha, noNul_cstr hb]

theorem textOf_noNul (field : List Byte) : (0 : UInt8) ∉ textOf field := by
  unfold textOf
  intro h
  rw [List.mem_map] at h
  obtain ⟨b, hb, hz⟩ := h
  have := List.mem_takeWhile_imp hb
  have hb0 : b = 0 := by
    have := congrArg UInt8.toBitVec hz
    simpa using this
  simp [hb0] at this

theorem find_insert_same (files : List (Str × Nat × Nat)) (k n : Str) (v : Nat × Nat) (h : key k = key n) :
    find (insert files k v) n = some v := by
  induction files with
  | nil =>
    have : iequalC k n = true := (iequalC_key k n).mpr h
    simp [insert, find, this]
  | cons f l ih =>
    obtain ⟨k', v'⟩ := f
    by_cases hk : iequalC k' k = true
    · have : iequalC k' n = true := (iequalC_key k' n).mpr (((iequalC_key k' k).mp hk).trans h)
      simp [insert, hk, find, this]
    · have : ¬ iequalC k' n = true := fun hn => hk ((iequalC_key k' k).mpr (((iequalC_key k' n).mp hn).trans h.symm))
      simp only [insert, hk, find, List.find?_cons, this, Bool.false_eq_true, if_false] at ih ⊢
      exact ih

theorem find_insert_other (files : List (Str × Nat × Nat)) (k n : Str) (v : Nat × Nat) (h : key k ≠ key n) :
    find (insert files k v) n = find files n := by
  induction files with
  | nil =>
    have : ¬ iequalC k n = true := fun hn => h ((iequalC_key k n).mp hn)
    simp [insert, find, this]
  | cons f l ih =>
    obtain ⟨k', v'⟩ := f
    by_cases hk : iequalC k' k = true
    · have : ¬ iequalC k' n = true := fun hn => h (((iequalC_key k' k).mp hk).symm.trans ((iequalC_key k' n).mp hn))
      simp [insert, hk, find, this]
    · simp only [insert, hk, Bool.false_eq_true, if_false, find, List.find?_cons] at ih ⊢
      by_cases hn : iequalC k' n = true
      · simp [hn]
      · simp only [hn]
        exact ih

theorem find_build_none (dir : List Entry) (n : Str) : ∀ files, (∀ e ∈ dir, key e.name ≠ key n) →
    find (build files dir) n = find files n := by
  induction dir with
  | nil => intro files _; rfl
  | cons e dir ih =>
    intro files h
    show find (build (insert files e.name (e.offset, e.size)) dir) n = _
    rw [ih _ (fun f hf => h f (List.mem_cons_of_mem _ hf)),
      find_insert_other _ _ _ _ (h e (List.mem_cons_self ..))]

theorem find_build_latest (l r : List Entry) (e : Entry) (n : Str) (files : List (Str × Nat × Nat))
    (he : key e.name = key n) (hr : ∀ f ∈ r, key f.name ≠ key n) :
    find (build files (l ++ e :: r)) n = some (e.offset, e.size) := by
  have : build files (l ++ e :: r) = build (insert (build files l) e.name (e.offset, e.size)) r := by
    simp only [build, List.foldl_append, List.foldl_cons]
  rw [this, find_build_none _ _ _ hr, find_insert_same _ _ _ _ he]

/-- A name is in the directory, as the last of that name, or not at all. -/
theorem latest_or (dir : List Entry) (n : Str) :
    (∃ l r e, dir = l ++ e :: r ∧ key e.name = key n ∧ ∀ f ∈ r, key f.name ≠ key n) ∨
      ∀ e ∈ dir, key e.name ≠ key n := by
  induction dir with
  | nil => right; simp
  | cons a dir ih =>
    rcases ih with ⟨l, r, e, hd, he, hr⟩ | h
    · left; exact ⟨a :: l, r, e, by rw [hd]; rfl, he, hr⟩
    · by_cases ha : key a.name = key n
      · left; exact ⟨[], dir, a, rfl, ha, h⟩
      · right
        intro e he
        rcases List.mem_cons.mp he with rfl | he
        · exact ha
        · exact h e he

/-! ### Loading -/

theorem load_files (p : Pack) (n : Str) : (p.load n).2.files = p.files := by
  unfold Pack.load
  split <;> rfl

theorem after_files (p : Pack) (l : List Str) : (p.after l).files = p.files := by
  induction l generalizing p with
  | nil => rfl
  | cons n l ih => rw [Pack.after, ih, load_files]

/-- The stream of an archive whose files lie within it never fails. -/
def Healthy (bytes : List Byte) (p : Pack) : Prop :=
  p.stream.bytes = bytes ∧ p.stream.failed = false

theorem find_mem_build (dir : List Entry) (n : Str) (v : Nat × Nat) (h : find (build [] dir) n = some v) :
    ∃ e ∈ dir, key e.name = key n ∧ v = (e.offset, e.size) := by
  rcases latest_or dir n with ⟨l, r, e, hd, he, hr⟩ | hnone
  · rw [hd, find_build_latest l r e n [] he hr] at h
    refine ⟨e, by rw [hd]; simp, he, ?_⟩
    simpa using h.symm
  · rw [find_build_none _ _ _ hnone] at h
    simp [find] at h

theorem load_healthy {bytes : List Byte} {dir : List Entry} {p : Pack} (hf : p.files = build [] dir)
    (hh : Healthy bytes p) (hw : ∀ e ∈ dir, Within bytes e) (n : Str) :
    Healthy bytes (p.load n).2 ∧
      (p.load n).1 = (find (build [] dir) n).map fun v => slice bytes v.1 v.2 := by
  obtain ⟨hb, hfail⟩ := hh
  unfold Pack.load
  rw [hf]
  cases hfd : find (build [] dir) n with
  | none => exact ⟨⟨hb, hfail⟩, rfl⟩
  | some v =>
    obtain ⟨off, size⟩ := v
    obtain ⟨e, he, _, hv⟩ := find_mem_build dir n _ hfd
    have hin : off + size ≤ bytes.length := by
      have := hw e he
      simp only [Prod.mk.injEq] at hv
      rw [hv.1, hv.2]; exact this
    have hs : p.stream.seek off = ⟨bytes, off, false⟩ := by
      simp only [Stream.seek, hfail, Bool.false_eq_true, if_false, hb]
    simp only [hs, read_in hin, slice_length hin, Nat.sub_self, List.replicate_zero, List.append_nil, Option.map_some]
    exact ⟨⟨rfl, rfl⟩, trivial⟩

theorem after_healthy {bytes : List Byte} {dir : List Entry} (hw : ∀ e ∈ dir, Within bytes e) (l : List Str) :
    ∀ p : Pack, p.files = build [] dir → Healthy bytes p → Healthy bytes (p.after l) := by
  induction l with
  | nil => intro p _ h; exact h
  | cons n l ih =>
    intro p hf hh
    exact ih _ (by rw [load_files, hf]) (load_healthy hf hh hw n).1

theorem faithful_of {bytes : List Byte} {dir : List Entry} {p : Pack} (hf : p.files = build [] dir)
    (hh : Healthy bytes p) (hw : ∀ e ∈ dir, Within bytes e) (hn : ∀ e ∈ dir, (0 : UInt8) ∉ e.name) :
    Faithful bytes dir p := by
  intro history name hname
  have hfa : (p.after history).files = build [] dir := by rw [after_files, hf]
  have hha := after_healthy hw history p hf hh
  have hload := (load_healthy hfa hha hw name).2
  refine ⟨?_, ?_, ?_⟩
  · unfold Pack.contains
    rw [hfa]
    constructor
    · intro h
      cases hfd : find (build [] dir) name with
      | none => rw [hfd] at h; cases h
      | some v =>
        obtain ⟨e, he, hk, _⟩ := find_mem_build dir name v hfd
        exact ⟨e, he, (sameText_key (hn e he) hname).mpr hk⟩
    · rintro ⟨e, he, hs⟩
      rcases latest_or dir name with ⟨l, r, e', hd, he', hr⟩ | hnone
      · rw [hd, find_build_latest l r e' name [] he' hr]; rfl
      · exact absurd ((sameText_key (hn e he) hname).mp hs) (hnone e he)
  · rintro e ⟨l, r, hd, hs, hr⟩
    have hmem : ∀ f ∈ l ++ e :: r, f ∈ dir := fun f hf => hd ▸ hf
    have hk := (sameText_key (hn e (hmem e (by simp))) hname).mp hs
    have hkr : ∀ f ∈ r, key f.name ≠ key name := fun f hf h =>
      hr f hf ((sameText_key (hn f (hmem f (by simp [hf]))) hname).mpr h)
    rw [hload]
    have : find (build [] dir) name = some (e.offset, e.size) := by
      rw [hd]; exact find_build_latest l r e name [] hk hkr
    rw [this]; rfl
  · intro h
    have : ∀ e ∈ dir, key e.name ≠ key name := fun e he hk => h e he ((sameText_key (hn e he) hname).mpr hk)
    rw [hload, find_build_none _ _ _ this]
    rfl

theorem directory_noNul (y : Layout) (bytes : List Byte) (start n : Nat) :
    ∀ e ∈ directory y bytes start n, (0 : UInt8) ∉ e.name := by
  intro e he
  unfold directory at he
  rw [List.mem_map] at he
  obtain ⟨i, _, rfl⟩ := he
  exact textOf_noNul _

end Verif.Archive
