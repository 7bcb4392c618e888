import Verif.Miptex.ChainLemmas

/-!
C209: the list of the textures of a map for Quake 2, and their animations.
-/

namespace Verif.Miptex.Chain

open Verif.Cmdlib (Str cstr)
open Miptex.Spec (fold lower)
open Chain.Spec

/-- A face: the texture it asks for, and what the map says of it. -/
abbrev Request := Str × Option Info

/-- The list that the faces of a map give. -/
inductive Listed (load : Str → Option Meta) : List Tex → Prop
  | empty : Listed load []
  | face {tbl : List Tex} {fuel : Nat} {r : Request} {i : Nat} {t : List Tex} :
    Listed load tbl → faceTexture load fuel r.1 r.2 tbl = some (.ok (i, t)) → Listed load t

theorem listed_good {load : Str → Option Meta} {tbl : List Tex} (h : Listed load tbl) : Good tbl := by
  induction h with
  | empty => exact good_nil
  | face _ e ih => exact (find_good load _ _ _ _ ih e).1

/-- No texture is listed twice with the same flags, value and animation. -/
theorem listed_unique {load : Str → Option Meta} {tbl : List Tex} (h : Listed load tbl) : (tbl.map Spec.id).Nodup :=
  (listed_good h).unique

/-- A face gets the number of a texture of its name (without regard to case), with the flags and value of the map or, if it
has none, of the file. -/
theorem face_number {load : Str → Option Meta} {tbl t : List Tex} (h : Listed load tbl) {fuel i : Nat} {name : Str}
    {given : Option Info} (e : faceTexture load fuel name given tbl = some (.ok (i, t))) :
    ∃ u, t[i]? = some u ∧ fold u.name = fold (cstr name) ∧
      (∀ x, given = some x → u.flags = x.flags ∧ u.value = x.value) ∧
      (given = none → ∀ w, load (cstr name) = some w → u.flags = w.flags ∧ u.value = w.value ∧ u.animation = w.animation) := by
  obtain ⟨-, -, u, hu, hid⟩ := find_good load _ _ _ _ (listed_good h) e
  simp only [infoOf, Spec.id, Prod.mk.injEq] at hid
  obtain ⟨h1, h2, h3, h4⟩ := hid
  refine ⟨u, hu, h1, ?_, ?_⟩
  · rintro x rfl
    rw [h2, h3]
    unfold faceInfo
    rcases load (cstr name) with _ | w <;> simp
  · rintro rfl w hw
    rw [h2, h3, h4]
    simp [faceInfo, hw]

/-- Later faces change neither number nor name, flags, value or animation of a texture. -/
theorem face_keeps {load : Str → Option Meta} {tbl t : List Tex} (h : Listed load tbl) {fuel i : Nat} {name : Str}
    {given : Option Info} (e : faceTexture load fuel name given tbl = some (.ok (i, t))) {k : Nat} {u : Tex}
    (hu : tbl[k]? = some u) : ∃ v, t[k]? = some v ∧ Spec.id v = Spec.id u :=
  (find_good load _ _ _ _ (listed_good h) e).2.1 k u hu

/-- A face never reads a texture that could not be loaded, and is never refused. (The map does not give an animation.) -/
theorem face_defined {load : Str → Option Meta} {tbl : List Tex} {fuel : Nat} {name : Str} {given : Option Info}
    (hgiven : ∀ x, given = some x → x.animation = []) :
    faceTexture load fuel name given tbl ≠ some .ub ∧ faceTexture load fuel name given tbl ≠ some .error := by
  unfold faceTexture findMiptex
  dsimp only [infoOf]
  by_cases hc : (place (cstr name) (faceInfo load (cstr name) given) tbl).2.2 = true ∧ (faceInfo load (cstr name) given).animation ≠ []
  · rw [if_pos hc]
    rcases hl : load (cstr name) with _ | w
    · exfalso
      apply hc.2
      unfold faceInfo
      rw [hl]
      rcases given with _ | x
      · rfl
      · exact hgiven x rfl
    · simp only
      split_ifs
      · exact ⟨by simp, by simp⟩
      · rcases follow load (cstr name) (faceInfo load (cstr name) given) fuel w
          (place (cstr name) (faceInfo load (cstr name) given) tbl).1
          (place (cstr name) (faceInfo load (cstr name) given) tbl).2.1 with _ | ⟨l, u⟩ <;>
          exact ⟨by simp, by simp⟩
  · rw [if_neg hc]
    exact ⟨by simp, by simp⟩

/-- An animation of different frames, from its first frame to one that names no further frame, a missing one, itself or the
first: after the first face with it, all frames are in the list with the flags and value of the face, each is followed by the
frame its file names, and the last by the first; all other textures are as they were. It is enough to look at each file
once. -/
theorem animation_listed {load : Str → Option Meta} {tbl : List Tex} (h : Listed load tbl) {first second : Meta}
    {rest : List Meta} {given : Option Info} {fuel : Nat} (hf : Frames load (first :: second :: rest))
    (hnd : ((first :: second :: rest).map fun w => fold w.name).Nodup)
    (hend : Ends load first ((second :: rest).getLast (by simp))) (hfuel : rest.length + 1 < fuel)
    (hnew : ∀ u ∈ tbl, ¬ Shows (faceInfo load first.name given) first u) :
    ∃ i t ns, faceTexture load fuel first.name given tbl = some (.ok (i, t)) ∧ ns.length = rest.length + 1 ∧
      Linked t (faceInfo load first.name given) i ((first :: second :: rest).zip (i :: ns)) ∧
      ∀ k < tbl.length, k ∉ i :: ns → t[k]? = tbl[k]? := by
  have hg := listed_good h
  obtain ⟨hfirst, hfa, hfn, hf'⟩ := id hf
  have hx : (faceInfo load first.name given).animation = first.animation := by
    unfold faceInfo
    rw [hfirst.1]
    rcases given with _ | x <;> rfl
  have hpl : place first.name (faceInfo load first.name given) tbl = (tbl.length, tbl ++ [⟨first.name,
      (faceInfo load first.name given).flags, (faceInfo load first.name given).value, first.animation, none⟩], true) := by
    unfold place
    have : tbl.findIdx? (matches' first.name (faceInfo load first.name given)) = none := by
      rw [List.findIdx?_eq_none_iff]
      intro u hu
      rcases hm : matches' first.name (faceInfo load first.name given) u with _ | _
      · rfl
      · exfalso
        have := (matches_iff hfirst.2.1 (hg.clean u hu)).mp hm
        rw [hx] at this
        exact hnew u hu (id_shows.mpr this)
    rw [this, hx]
  obtain ⟨g1, pr, -⟩ := place_spec hfirst.2.1 (faceInfo load first.name given) hg
  rw [hpl] at g1 pr
  have hentry : ∃ e, (tbl ++ [(⟨first.name, (faceInfo load first.name given).flags, (faceInfo load first.name given).value,
      first.animation, none⟩ : Tex)])[tbl.length]? = some e ∧ Shows (faceInfo load first.name given) first e :=
    ⟨_, by simp; rfl, rfl, rfl, rfl, rfl⟩
  obtain ⟨l, t, ns, hrun, -, hlen, hlk, hother, -⟩ := follow_run load (faceInfo load first.name given) first tbl.length
    hfirst (second :: rest) first tbl.length _ fuel g1 (by simpa using hfuel) hf hnd
    (by
      intro v hv e
      have := (List.nodup_cons.mp hnd).1
      exact this (List.mem_map.mpr ⟨v, hv, e⟩))
    (by simpa using hend) hentry hentry
  refine ⟨tbl.length, link t l tbl.length, ns, ?_, by simpa using hlen, hlk, ?_⟩
  · have hself : Cmdlib.iequalC first.name first.animation = false := by
      rcases hm : Cmdlib.iequalC first.name first.animation with _ | _
      · rfl
      · exfalso
        rw [iequalC_iff, cstr_clean hfirst.2.1, cstr_clean hfirst.2.2, hfa] at hm
        exact (List.nodup_cons.mp hnd).1 (by simp [hm])
    unfold faceTexture findMiptex
    simp only [infoOf, cstr_clean hfirst.2.1, hpl, hx, hfirst.1, hself]
    rw [if_pos ⟨trivial, hfn⟩]
    simp only [Bool.false_eq_true, if_false]
    rw [hrun]
  · intro k hk hkn
    rw [hother k (by simp; omega) hkn, List.getElem?_append_left hk]

/-- An animation that runs into a circle without its first frame: qbsp never ends. -/
theorem animation_never_ends {load : Str → Option Meta} {tbl : List Tex} (h : Listed load tbl) (f : Nat → Meta)
    {given : Option Info} (hfile : ∀ n, IsFile load (f n)) (hnext : ∀ n, (f n).animation = (f (n + 1)).name)
    (hne : ∀ n, (f n).animation ≠ []) (hstep : ∀ n, fold (f n).name ≠ fold (f (n + 1)).name)
    (hback : ∀ n, fold (f (n + 1)).name ≠ fold (f 0).name)
    (hnew : ∀ u ∈ tbl, ¬ Shows (faceInfo load (f 0).name given) (f 0) u) (fuel : Nat) :
    faceTexture load fuel (f 0).name given tbl = none := by
  have hg := listed_good h
  have hx : (faceInfo load (f 0).name given).animation = (f 0).animation := by
    unfold faceInfo
    rw [(hfile 0).1]
    rcases given with _ | x <;> rfl
  have run : ∀ (fuel n last : Nat) (t : List Tex), Good t → (∃ e, t[last]? = some e ∧ fold e.name = fold (f n).name) →
      follow load (f 0).name (faceInfo load (f 0).name given) fuel (f n) last t = none := by
    intro fuel
    induction fuel with
    | zero => intros; rfl
    | succ fuel ih =>
      rintro n last t gt ⟨e, he, hen⟩
      have hv := hfile (n + 1)
      rw [follow, if_neg (hne n), hnext, cstr_clean hv.2.1, hv.1]
      obtain ⟨g1, pr, u, hu, hid⟩ := place_spec hv.2.1
        { faceInfo load (f 0).name given with animation := (f (n + 1)).animation } gt
      simp only [cstr_clean hv.2.1]
      have hun : fold u.name = fold (f (n + 1)).name := congrArg Prod.fst hid
      have hlp : last ≠ (place (f (n + 1)).name
          { faceInfo load (f 0).name given with animation := (f (n + 1)).animation } t).1 := by
        intro el
        rw [← el, prefix_get pr he] at hu
        simp only [Option.some.injEq] at hu
        rw [← hu, hen] at hun
        exact hstep n hun
      rw [if_neg]
      · refine ih (n + 1) _ _ (link_good g1 _ _) ⟨u, ?_, hun⟩
        rw [link_get, if_neg hlp, hu]
      · rintro (hq | hq)
        · rw [iequalC_iff, cstr_clean hv.2.1, cstr_clean (hfile 0).2.1] at hq
          exact hback n hq
        · exact hlp hq
  obtain ⟨g1, pr, u, hu, hid⟩ := place_spec (hfile 0).2.1 (faceInfo load (f 0).name given) hg
  have hnewp : (place (f 0).name (faceInfo load (f 0).name given) tbl).2.2 = true := by
    unfold place
    have : tbl.findIdx? (matches' (f 0).name (faceInfo load (f 0).name given)) = none := by
      rw [List.findIdx?_eq_none_iff]
      intro u hu
      rcases hm : matches' (f 0).name (faceInfo load (f 0).name given) u with _ | _
      · rfl
      · exfalso
        have := (matches_iff (hfile 0).2.1 (hg.clean u hu)).mp hm
        rw [hx] at this
        exact hnew u hu (id_shows.mpr this)
    rw [this]
  have hself : Cmdlib.iequalC (f 0).name (f 0).animation = false := by
    rcases hm : Cmdlib.iequalC (f 0).name (f 0).animation with _ | _
    · rfl
    · exfalso
      rw [iequalC_iff, hnext, cstr_clean (hfile 0).2.1, cstr_clean (hfile 1).2.1] at hm
      exact hstep 0 hm
  unfold faceTexture findMiptex
  simp only [infoOf, cstr_clean (hfile 0).2.1, hx, (hfile 0).1, hself]
  rw [if_pos ⟨hnewp, hne 0⟩]
  simp only [Bool.false_eq_true, if_false]
  rw [run fuel 0 _ _ g1 ⟨u, hu, congrArg Prod.fst hid⟩]

/-- ASCII. -/
def txt (s : String) : Str := s.toList.map fun c => UInt8.ofNat c.toNat

/-- Texture files: name and animation. -/
def files (l : List (String × String)) (n : Str) : Option Meta :=
  (l.find? fun p => txt p.1 = n).map fun p => ⟨txt p.1, 0, 0, 0, txt p.2⟩

/-- Such a circle: `a` is followed by `b`, and `b` and `c` by each other. -/
theorem circle_never_ends (fuel : Nat) :
    faceTexture (files [("a", "b"), ("b", "c"), ("c", "b")]) fuel (txt "a") none [] = none := by
  let f : Nat → Meta := fun n => if n = 0 then ⟨txt "a", 0, 0, 0, txt "b"⟩
    else if n % 2 = 1 then ⟨txt "b", 0, 0, 0, txt "c"⟩ else ⟨txt "c", 0, 0, 0, txt "b"⟩
  have cases' : ∀ (P : Meta → Meta → Prop), P ⟨txt "a", 0, 0, 0, txt "b"⟩ ⟨txt "b", 0, 0, 0, txt "c"⟩ →
      P ⟨txt "b", 0, 0, 0, txt "c"⟩ ⟨txt "c", 0, 0, 0, txt "b"⟩ → P ⟨txt "c", 0, 0, 0, txt "b"⟩ ⟨txt "b", 0, 0, 0, txt "c"⟩ →
      ∀ n, P (f n) (f (n + 1)) := by
    intro P h1 h2 h3 n
    by_cases h0 : n = 0
    · subst h0; exact h1
    · have hn1 : n + 1 ≠ 0 := by omega
      rcases Nat.mod_two_eq_zero_or_one n with hm | hm
      · have : (n + 1) % 2 = 1 := by omega
        simp only [f, if_neg h0, if_neg hn1, hm, this]
        exact h3
      · have : (n + 1) % 2 = 0 := by omega
        simp only [f, if_neg h0, if_neg hn1, hm, this]
        exact h2
  refine animation_never_ends .empty f (given := none) (cases' (fun a _ => IsFile _ a) ?_ ?_ ?_)
    (cases' (fun a b => a.animation = b.name) ?_ ?_ ?_) (cases' (fun a _ => a.animation ≠ []) ?_ ?_ ?_)
    (cases' (fun a b => fold a.name ≠ fold b.name) ?_ ?_ ?_)
    (cases' (fun _ b => fold b.name ≠ fold (txt "a")) ?_ ?_ ?_) (by simp) fuel
  all_goals first
    | exact ⟨by decide +kernel, by decide +kernel, by decide +kernel⟩
    | decide +kernel

/-- A texture without animation is animated all the same, if it is the last frame of another one: here `b`, which was
listed before `a`, is followed by `a` afterwards. -/
theorem still_texture_animated : ∃ t, faceTexture (files [("a", "b"), ("b", "")]) 5 (txt "b") none [] = some (.ok (0, t)) ∧
    t = [⟨txt "b", 0, 0, [], none⟩] ∧
    faceTexture (files [("a", "b"), ("b", "")]) 5 (txt "a") none t =
      some (.ok (1, [⟨txt "b", 0, 0, [], some 1⟩, ⟨txt "a", 0, 0, txt "b", some 0⟩])) :=
  ⟨_, by decide +kernel, rfl, by decide +kernel⟩

-- An animation of three frames, first met at its second; and one with a missing frame.
example : faceTexture (files [("a", "b"), ("b", "c"), ("c", "a")]) 5 (txt "b") (some ⟨0, 1, 300, []⟩) [] =
    some (.ok (0, [⟨txt "b", 1, 300, txt "c", some 1⟩, ⟨txt "c", 1, 300, txt "a", some 2⟩, ⟨txt "a", 1, 300, txt "b", some 0⟩])) := by
  decide +kernel
example : faceTexture (files [("a", "b"), ("b", "x")]) 5 (txt "a") none [] =
    some (.ok (0, [⟨txt "a", 0, 0, txt "b", some 1⟩, ⟨txt "b", 0, 0, txt "x", some 0⟩])) := by decide +kernel
-- The hypotheses of `animation_listed`.
example : Frames (files [("a", "b"), ("b", "c"), ("c", "a")])
    [⟨txt "b", 0, 0, 0, txt "c"⟩, ⟨txt "c", 0, 0, 0, txt "a"⟩, ⟨txt "a", 0, 0, 0, txt "b"⟩] :=
  ⟨⟨by decide +kernel, by decide +kernel, by decide +kernel⟩, by decide +kernel, by decide +kernel,
    ⟨by decide +kernel, by decide +kernel, by decide +kernel⟩, by decide +kernel, by decide +kernel,
    by decide +kernel, by decide +kernel, by decide +kernel⟩

end Verif.Miptex.Chain
