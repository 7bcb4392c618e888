import Verif.Miptex.Lemmas

/-!
C208: the list of the textures of a map for Quake, Hexen 2 and Half-Life.
-/

namespace Verif.Miptex

open Verif.Cmdlib (Str cstr)
open Spec

/-- The list that the faces of a map give: each texture once, without regard to case and path; every texture a face asks for
is there, and nothing else but frames below those; below every animated texture all lower frames are there. -/
theorem textures_listed {requests tbl : List Str} (h : findAll requests [] = .ok tbl) :
    Spec.Unique tbl ∧ FramesBelow tbl ∧
      (∀ r ∈ requests, ∃ n, IsBase (cstr r) n ∧ fold n ∈ tbl.map fold) ∧
      (∀ m ∈ tbl, ∃ r ∈ requests, ∃ n, IsBase (cstr r) n ∧ (m = n ∨ FrameOf n m)) := by
  obtain ⟨g, -, q, o, f⟩ := findAll_spec requests [] good_nil h
  refine ⟨g.unique, f framesBelow_nil, fun r hr => ⟨_, baseName_isBase _, q r hr⟩, fun m hm => ?_⟩
  rcases o m hm with hm | ⟨r, hr, e⟩
  · simp at hm
  · exact ⟨r, hr, _, baseName_isBase _, e⟩

/-- The number a face gets names its texture, also after any other faces. -/
theorem number_stays {before after : List Str} {request : Str} {tbl t u : List Str} {i : Nat}
    (h1 : findAll before [] = .ok tbl) (h2 : findMiptex request tbl = .ok (i, t)) (h3 : findAll after t = .ok u) :
    ∃ n m, IsBase (cstr request) n ∧ u[i]? = some m ∧ fold m = fold n := by
  have g := (findAll_spec before [] good_nil h1).1
  obtain ⟨g', -, ⟨m, hm, em⟩, -⟩ := find_spec g h2
  have p := (findAll_spec after t g' h3).2.1
  obtain ⟨l, rfl⟩ := p
  refine ⟨_, m, baseName_isBase _, ?_, em⟩
  rw [List.getElem?_append_left (List.getElem?_eq_some_iff.mp hm).1, hm]

/-- A face is refused exactly if its texture is new, animated, and its second character is no digit, no letter from A to J and
none of the characters 1 to 9. Nothing is undefined. -/
theorem refused_iff {before tbl : List Str} (h : findAll before [] = .ok tbl) (request : Str) :
    findMiptex request tbl ≠ .ub ∧
      (findMiptex request tbl = .error ↔ ∃ c rest, IsBase (cstr request) (43 :: c :: rest) ∧
        fold (43 :: c :: rest) ∉ tbl.map fold ∧ ¬ ((48 ≤ c ∧ c ≤ 57) ∨ (97 ≤ lower c ∧ lower c ≤ 106) ∨ c ≤ 9)) := by
  have g := (findAll_spec before [] good_nil h).1
  have hfr : ∀ c : UInt8, frameOf c = none ↔ ¬ ((48 ≤ c ∧ c ≤ 57) ∨ (97 ≤ lower c ∧ lower c ≤ 106) ∨ c ≤ 9) := by
    intro c
    have hc := c.toNat_lt
    simp only [frameOf, lower, UInt8.le_iff_toNat_le]
    split_ifs <;> simp [UInt8.toNat_sub, UInt8.toNat_add] at * <;> omega
  obtain ⟨h1, h2⟩ := find_error_iff request tbl g
  refine ⟨h1, h2.trans ?_⟩
  have hb := baseName_isBase (cstr request)
  constructor
  · rintro ⟨hn, hh, hf⟩
    rcases e : baseName (cstr request) with _ | ⟨a, _ | ⟨c, rest⟩⟩
    · rw [e] at hh; simp at hh
    · rw [e] at hf; simp [frameOf] at hf
    · rw [e] at hb hn hh hf
      simp only [List.head?_cons, Option.some.injEq] at hh
      subst hh
      exact ⟨c, rest, hb, hn, (hfr c).mp (by simpa using hf)⟩
  · rintro ⟨c, rest, hb', hn, hc⟩
    have e : baseName (cstr request) = 43 :: c :: rest := by
      unfold baseName
      obtain ⟨hs, e | ⟨dir, e⟩⟩ := hb'
      · rw [e, List.takeWhile_eq_self_iff.mpr, List.reverse_reverse]
        intro x hx
        simp only [ne_eq, decide_eq_true_eq]
        exact fun ex => hs (ex ▸ List.mem_reverse.mp hx)
      · rw [e, List.reverse_append, List.reverse_cons, List.append_assoc, List.takeWhile_append_of_pos]
        · simp
        · intro x hx
          simp only [ne_eq, decide_eq_true_eq]
          exact fun ex => hs (ex ▸ List.mem_reverse.mp hx)
    rw [e]
    exact ⟨hn, rfl, by simpa using (hfr c).mpr hc⟩

/-- Then all frames that the texture files have are added for all animated (in Half-Life also the random) textures, and
nothing but these and the frames below them; textures keep their numbers. -/
theorem frames_added {requests tbl t : List Str} {halfLife : Bool} {there : Str → Bool}
    (h1 : findAll requests [] = .ok tbl) (h2 : addAnimationFrames halfLife there tbl = .ok t) :
    Spec.Unique t ∧ FramesBelow t ∧ tbl <+: t ∧
      (∀ a c rest, (a = 43 ∨ (halfLife = true ∧ a = 45)) → a :: c :: rest ∈ tbl → ∀ b, IsFrame b →
        there (a :: b :: rest) = true → fold (a :: b :: rest) ∈ t.map fold) ∧
      (∀ m ∈ t, m ∈ tbl ∨ ∃ a c rest b, (a = 43 ∨ (halfLife = true ∧ a = 45)) ∧ a :: c :: rest ∈ tbl ∧ IsFrame b ∧
        there (a :: b :: rest) = true ∧ (m = a :: b :: rest ∨ FrameOf (a :: b :: rest) m)) := by
  obtain ⟨g, -, -, -, f⟩ := findAll_spec requests [] good_nil h1
  by_cases hex : ∃ n ∈ tbl, hasFrames halfLife n = true ∧ n.length < 2
  · rw [addAnimationFrames, framesLoop_ub halfLife there tbl g.clean hex tbl g] at h2
    cases h2
  have hlen : ∀ n ∈ tbl, hasFrames halfLife n = true → 2 ≤ n.length := by
    intro n hn hf
    by_contra hc
    exact hex ⟨n, hn, hf, by omega⟩
  obtain ⟨t', e, g', p, q, o, f'⟩ := framesLoop_spec halfLife there tbl g.clean hlen tbl g
  rw [addAnimationFrames, e] at h2
  simp only [Outcome.ok.injEq] at h2
  subst h2
  refine ⟨g'.unique, f' (f framesBelow_nil), p, ?_, ?_⟩
  · intro a c rest ha hm b hb hth
    obtain ⟨j, hj, rfl⟩ := frameChar_surj hb
    exact q _ hm ((hasFrames_iff _ _).mpr ⟨a, _, rfl, ha⟩) j hj hth
  · intro m hm
    rcases o m hm with hm | ⟨n, hn, hf, j, hj, hth, e⟩
    · exact Or.inl hm
    · obtain ⟨a, c, rest, rfl, hset⟩ := set_one (hlen n hn hf)
      rw [hset] at hth e
      obtain ⟨a', rest', e', ha⟩ := (hasFrames_iff _ _).mp hf
      simp only [List.cons.injEq] at e'
      rw [← e'.1] at ha
      exact Or.inr ⟨a, c, rest, _, ha, hn, (frameChar_frame hj).1, hth, e⟩

/-- Looking for frames is undefined exactly if a texture is called `+` (in Half-Life also `-`); otherwise it succeeds. -/
theorem frames_ub_iff {requests tbl : List Str} {halfLife : Bool} {there : Str → Bool}
    (h : findAll requests [] = .ok tbl) : addAnimationFrames halfLife there tbl ≠ .error ∧
      (addAnimationFrames halfLife there tbl = .ub ↔ [43] ∈ tbl ∨ (halfLife = true ∧ [45] ∈ tbl)) := by
  have g := (findAll_spec requests [] good_nil h).1
  have hiff : (∃ n ∈ tbl, hasFrames halfLife n = true ∧ n.length < 2) ↔ [43] ∈ tbl ∨ (halfLife = true ∧ [45] ∈ tbl) := by
    constructor
    · rintro ⟨n, hn, hf, hl⟩
      obtain ⟨a, rest, rfl, ha⟩ := (hasFrames_iff _ _).mp hf
      have : rest = [] := by
        cases rest with
        | nil => rfl
        | cons => simp at hl; omega
      subst this
      rcases ha with rfl | ⟨hh, rfl⟩
      · exact Or.inl hn
      · exact Or.inr ⟨hh, hn⟩
    · rintro (hn | ⟨hh, hn⟩)
      · exact ⟨_, hn, (hasFrames_iff _ _).mpr ⟨43, [], rfl, Or.inl rfl⟩, by simp⟩
      · exact ⟨_, hn, (hasFrames_iff _ _).mpr ⟨45, [], rfl, Or.inr ⟨hh, rfl⟩⟩, by simp⟩
  rw [← hiff]
  by_cases hex : ∃ n ∈ tbl, hasFrames halfLife n = true ∧ n.length < 2
  · rw [addAnimationFrames, framesLoop_ub halfLife there tbl g.clean hex tbl g]
    exact ⟨fun e => by (cases e), fun _ => hex, fun _ => rfl⟩
  · have hlen : ∀ n ∈ tbl, hasFrames halfLife n = true → 2 ≤ n.length := by
      intro n hn hf
      by_contra hc
      exact hex ⟨n, hn, hf, by omega⟩
    obtain ⟨t', e, -⟩ := framesLoop_spec halfLife there tbl g.clean hlen tbl g
    rw [addAnimationFrames, e]
    exact ⟨fun e => by (cases e), fun e => by (cases e), fun e => absurd e hex⟩

/-- ASCII. -/
def txt (s : String) : Str := s.toList.map fun c => UInt8.ofNat c.toNat

/-- Lower frames come before higher ones, as the engines want it (qbsp/map.cc:411-414). -/
def LowerFirst (tbl : List Str) : Prop :=
  ∀ l1 l2 c rest, tbl = l1 ++ (43 :: c :: rest) :: l2 → ∀ b, Below b c → fold (43 :: b :: rest) ∈ l1.map fold

/-- That is not so: a texture is listed before the frames below it. -/
theorem lower_not_first : findAll [txt "+1slip"] [] = .ok [txt "+1slip", txt "+0slip"] ∧
    ¬ LowerFirst [txt "+1slip", txt "+0slip"] := by
  refine ⟨by decide +kernel, fun h => ?_⟩
  have := h [] [txt "+0slip"] 49 (txt "slip") (by decide) 48 (Or.inl (by decide))
  simp at this

/-- The frames below a texture with a name of more than 15 characters are other textures. -/
theorem long_name_cut : findAll [txt "+1abcdefghijklmn"] [] = .ok [txt "+1abcdefghijklmn", txt "+0abcdefghijklm"] := by
  decide +kernel

/-- The name `+` is accepted, and then undefined. -/
theorem plus_ub : findAll [txt "+"] [] = .ok [txt "+"] ∧ addAnimationFrames false (fun _ => false) [txt "+"] = .ub := by
  decide +kernel

-- Faces with a path, another case, and frames; then the files have two more of them.
example : findAll [txt "wall", txt "e1u1/WALL", txt "+bdoor", txt "+0door"] [] =
    .ok [txt "wall", txt "+bdoor", txt "+Adoor", txt "+0door"] := by decide +kernel
example : addAnimationFrames false (fun n => n = txt "+2door" ∨ n = txt "+cdoor")
    [txt "wall", txt "+bdoor", txt "+Adoor", txt "+0door"] =
    .ok [txt "wall", txt "+bdoor", txt "+Adoor", txt "+0door", txt "+2door", txt "+1door", txt "+cdoor"] := by decide +kernel
example : findMiptex (txt "+zdoor") [txt "wall"] = .error := by decide +kernel
example : addAnimationFrames true (fun n => n = txt "-2tile") [txt "-1tile"] = .ok [txt "-1tile", txt "-2tile"] := by
  decide +kernel

end Verif.Miptex
