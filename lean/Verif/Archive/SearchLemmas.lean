import Verif.Archive.SearchSpec
import Verif.Archive.Props

namespace Verif.Archive

open Verif
open Verif.Cmdlib (Str iequals)
open Verif.Cmdlib.Spec (SameText)

/-! ### The order of the search -/

theorem findLoose_first (d : Disk) (p : Path) : FirstOf d p [.loose] (findLoose d p) := by
  unfold findLoose
  cases h : d p with
  | missing =>
    simp only [Node.there, Node.isDir, Bool.false_and, Bool.false_eq_true, if_false, FirstOf]
    intro q hq
    rw [List.mem_singleton] at hq
    subst hq
    rintro ⟨id, bytes, h'⟩
    rw [h] at h'; cases h'
  | dir i =>
    simp only [Node.there, Node.isDir, Bool.not_true, Bool.and_false, Bool.false_eq_true, if_false, FirstOf]
    intro q hq
    rw [List.mem_singleton] at hq
    subst hq
    rintro ⟨id, bytes, h'⟩
    rw [h] at h'; cases h'
  | file i bytes =>
    simp only [Node.there, Node.isDir, Bool.not_false, Bool.and_true, if_true, FirstOf]
    exact ⟨[], .loose, [], rfl, ⟨i, bytes, h⟩, rfl, by simp⟩

theorem there_iff (n : Node) : n.there = true ↔ n ≠ .missing := by cases n <;> simp [Node.there]

theorem dir_has {d : Disk} {p : Path} (hp : p.abs = false) (a : Dir) :
    a.contains d p = true ↔ (Place.dir a).Has d p := by
  simp only [Dir.contains, there_iff, Path.join, hp, Bool.false_eq_true, if_false, Place.Has]

theorem findDirs_first (d : Disk) (st : State) (p : Path) (hp : p.abs = false) :
    FirstOf d p (st.dirs.map .dir) (findDirs d st p) := by
  unfold findDirs
  induction st.dirs with
  | nil => simp [FirstOf]
  | cons a l ih =>
    rw [List.find?_cons]
    by_cases h : a.contains d p = true
    · rw [h]
      exact ⟨[], .dir a, l.map .dir, rfl, (dir_has hp a).mp h, rfl, by simp⟩
    · have h' : a.contains d p = false := by simpa using h
      rw [h']
      have hn : ¬ (Place.dir a).Has d p := fun hh => h ((dir_has hp a).mpr hh)
      cases hf : l.find? (fun a => a.contains d p) with
      | none =>
        rw [hf] at ih
        intro q hq
        rcases List.mem_cons.mp hq with rfl | hq
        · exact hn
        · exact ih q hq
      | some b =>
        rw [hf] at ih
        obtain ⟨l', q, m, hs, hq, hr, hl⟩ := ih
        refine ⟨.dir a :: l', q, m, by rw [List.map_cons, hs]; rfl, hq, hr, ?_⟩
        intro q' hq'
        rcases List.mem_cons.mp hq' with rfl | hq'
        · exact hn
        · exact hl q' hq'

theorem findArcs_first (d : Disk) (st : State) (p : Path) :
    FirstOf d p (st.arcs.map .arc) (findArcs st p) := by
  unfold findArcs
  induction st.arcs with
  | nil => simp [FirstOf]
  | cons a l ih =>
    rw [List.find?_cons]
    by_cases h : a.pack.contains p.text = true
    · rw [h]
      exact ⟨[], .arc a, l.map .arc, rfl, h, rfl, by simp⟩
    · have h' : a.pack.contains p.text = false := by simpa using h
      rw [h']
      have hn : ¬ (Place.arc a).Has d p := h
      cases hf : l.find? (fun a => a.pack.contains p.text) with
      | none =>
        rw [hf] at ih
        intro q hq
        rcases List.mem_cons.mp hq with rfl | hq
        · exact hn
        · exact ih q hq
      | some b =>
        rw [hf] at ih
        obtain ⟨l', q, m, hs, hq, hr, hl⟩ := ih
        refine ⟨.arc a :: l', q, m, by rw [List.map_cons, hs]; rfl, hq, hr, ?_⟩
        intro q' hq'
        rcases List.mem_cons.mp hq' with rfl | hq'
        · exact hn
        · exact hl q' hq'

theorem first_append {d : Disk} {p : Path} {l m : List Place} {r s : Option (Ref × Path)}
    (hl : FirstOf d p l r) (hm : FirstOf d p m s) : FirstOf d p (l ++ m) (r.orElse fun _ => s) := by
  cases r with
  | some r =>
    obtain ⟨l', q, m', hs, hq, hr, hn⟩ := hl
    exact ⟨l', q, m' ++ m, by rw [hs]; simp, hq, hr, hn⟩
  | none =>
    cases s with
    | none =>
      intro q hq
      rcases List.mem_append.mp hq with hq | hq
      · exact hl q hq
      · exact hm q hq
    | some s =>
      obtain ⟨l', q, m', hs, hq, hr, hn⟩ := hm
      refine ⟨l ++ l', q, m', by rw [hs]; simp, hq, hr, ?_⟩
      intro q' hq'
      rcases List.mem_append.mp hq' with hq' | hq'
      · exact hl q' hq'
      · exact hn q' hq'

theorem search_first (d : Disk) (st : State) (p : Path) (loose : Bool) :
    FirstOf d p (order st p loose) (search d st p loose) := by
  have hL := findLoose_first d p
  have hA := findArcs_first d st p
  unfold search pass order archivePass
  cases ha : p.abs with
  | true =>
    cases loose with
    | true =>
      simp only [bne_iff_ne, ne_eq, Bool.true_eq_false, not_false_eq_true, if_true, not_true_eq_false, if_false,
        Bool.not_true, Bool.false_eq_true]
      have := first_append hL (s := none) (m := []) (by simp [FirstOf])
      simpa using this
    | false =>
      simp only [bne_self_eq_false, Bool.false_eq_true, if_false, Bool.not_true, if_true, bne_iff_ne, ne_eq,
        Bool.false_eq_true, not_false_eq_true]
      exact hL
  | false =>
    have hD := findDirs_first d st p ha
    cases loose with
    | true =>
      simp only [bne_iff_ne, ne_eq, Bool.true_eq_false, not_false_eq_true, if_true, not_true_eq_false, if_false,
        Bool.not_false, Bool.false_eq_true]
      exact first_append hL (first_append hD hA)
    | false =>
      simp only [bne_self_eq_false, Bool.false_eq_true, if_false, Bool.not_false, if_true, bne_iff_ne, ne_eq,
        not_false_eq_true]
      exact first_append (first_append hA hD) hL

/-! ### Splitting -/

theorem isFile_iff (n : Node) : n.isFile = true ↔ ∃ id bytes, n = .file id bytes := by
  cases n <;> simp [Node.isFile]

theorem splitLoop_none (d : Disk) (p : Path) (n : Nat)
    (h : ∀ k, 0 < k → k ≤ n → ∀ id bytes, d ⟨p.abs, p.parts.take k⟩ ≠ .file id bytes) :
    splitLoop d p n = none := by
  induction n with
  | zero => rfl
  | succ n ih =>
    have hn : ¬ (d ⟨p.abs, p.parts.take (n + 1)⟩).isFile = true := by
      rw [isFile_iff]
      rintro ⟨id, bytes, hd⟩
      exact h (n + 1) (by omega) (by omega) id bytes hd
    rw [splitLoop, if_neg hn]
    exact ih (fun k hk hkn => h k hk (by omega))

theorem split_plain {d : Disk} {p : Path} (h : Plain d p) : splitPath d p = none := by
  apply splitLoop_none
  intro k hk hkn
  exact h k hk (by omega)

theorem splitLoop_some (d : Disk) (p : Path) (n : Nat) (a f : Path) (h : splitLoop d p n = some (a, f)) :
    ∃ k, 0 < k ∧ k ≤ n ∧ a = ⟨p.abs, p.parts.take k⟩ ∧ f = ⟨false, p.parts.drop k⟩ ∧
      ∃ id bytes, d a = .file id bytes := by
  induction n with
  | zero => cases h
  | succ n ih =>
    rw [splitLoop] at h
    by_cases hn : (d ⟨p.abs, p.parts.take (n + 1)⟩).isFile = true
    · rw [if_pos hn] at h
      simp only [Option.some.injEq, Prod.mk.injEq] at h
      refine ⟨n + 1, by omega, by omega, h.1.symm, h.2.symm, ?_⟩
      rw [← h.1]
      exact (isFile_iff _).mp hn
    · rw [if_neg hn] at h
      obtain ⟨k, h1, h2, h3⟩ := ih h
      exact ⟨k, h1, by omega, h3⟩

theorem split_isSome (d : Disk) (p : Path) (k : Nat) (hk : 0 < k) (n : Nat) (hkn : k ≤ n) (id : Nat)
    (bytes : List Byte) (h : d ⟨p.abs, p.parts.take k⟩ = .file id bytes) : (splitLoop d p n).isSome = true := by
  induction n with
  | zero => omega
  | succ n ih =>
    rw [splitLoop]
    by_cases hn : (d ⟨p.abs, p.parts.take (n + 1)⟩).isFile = true
    · rw [if_pos hn]; rfl
    · rw [if_neg hn]
      by_cases hkn' : k = n + 1
      · subst hkn'
        exact absurd ((isFile_iff _).mpr ⟨id, bytes, h⟩) hn
      · exact ih (by omega)

/-! ### Registering -/

/-- What registering does to the search path. -/
inductive Added (d : Disk) (st : State) (external : Bool) : Path → State → Option Ref → Prop
  | refused (p) : Added d st external p st none
  | dirKnown (p) (a : Dir) (ha : a ∈ st.dirs) (hs : (d a.path).id? = (d p).id?)
      (hd : ∃ id, d p = .dir id) : Added d st external p st (some (.dir a.path))
  | arcKnown (p) (a : Arc) (ha : a ∈ st.arcs) (hs : (d a.path).id? = (d p).id?) :
      Added d st external p st (some (.arc a.path))
  | dirNew (p) (hd : ∃ id, d p = .dir id) (hn : ∀ a ∈ st.dirs, (d a.path).id? ≠ (d p).id?) :
      Added d st external p { st with dirs := ⟨p, external⟩ :: st.dirs } (some (.dir p))
  | arcNew (p) (id : Nat) (bytes : List Byte) (pack : Pack) (hd : d p = .file id bytes)
      (hn : ∀ a ∈ st.arcs, (d a.path).id? ≠ (d p).id?)
      (ho : (SameText p.extension [46, 112, 97, 107] ∧ openPak bytes = .ok pack) ∨
        (¬ SameText p.extension [46, 112, 97, 107] ∧ SameText p.extension [46, 119, 97, 100] ∧
          openWad bytes = .ok pack)) :
      Added d st external p { st with arcs := ⟨p, external, pack⟩ :: st.arcs } (some (.arc p))

theorem iequals_sameText (a b : Str) : iequals a b = true ↔ SameText a b := by
  rw [Cmdlib.iequals_iff, Cmdlib.sameText_iff]

theorem same_iff (d : Disk) (p q : Path) : same d p q = true ↔ (d p).id? = (d q).id? := by
  simp [same]

theorem addInternal_added {d : Disk} {st st' : State} {p : Path} {ext : Bool} {r : Option Ref}
    (h : addInternal d st p ext = .ok (st', r)) : Added d st ext p st' r := by
  unfold addInternal at h
  by_cases hdir : (d p).isDir = true
  · rw [if_pos hdir] at h
    have hd : ∃ id, d p = .dir id := by
      cases hp : d p <;> simp [hp, Node.isDir] at hdir ⊢
    cases hf : st.dirs.find? (fun a => same d a.path p) with
    | some a =>
      rw [hf] at h
      simp only [Outcome.ok.injEq, Prod.mk.injEq] at h
      rw [← h.1, ← h.2]
      exact .dirKnown p a (List.mem_of_find?_eq_some hf) ((same_iff d a.path p).mp (by have := List.find?_some hf; exact this)) hd
    | none =>
      rw [hf] at h
      simp only [Outcome.ok.injEq, Prod.mk.injEq] at h
      rw [← h.1, ← h.2]
      refine .dirNew p hd ?_
      intro a ha hs
      exact List.find?_eq_none.mp hf a ha ((same_iff _ _ _).mpr hs)
  · rw [if_neg hdir] at h
    cases hf : st.arcs.find? (fun a => same d a.path p) with
    | some a =>
      rw [hf] at h
      simp only [Outcome.ok.injEq, Prod.mk.injEq] at h
      rw [← h.1, ← h.2]
      exact .arcKnown p a (List.mem_of_find?_eq_some hf) ((same_iff d a.path p).mp (by have := List.find?_some hf; exact this))
    | none =>
      rw [hf] at h
      have hn : ∀ a ∈ st.arcs, (d a.path).id? ≠ (d p).id? := by
        intro a ha hs
        exact List.find?_eq_none.mp hf a ha ((same_iff _ _ _).mpr hs)
      cases hp : d p with
      | missing =>
        rw [hp] at h
        simp only [Outcome.ok.injEq, Prod.mk.injEq] at h
        rw [← h.1, ← h.2]; exact .refused p
      | dir i => simp [hp, Node.isDir] at hdir
      | file i bytes =>
        rw [hp] at h
        simp only at h
        by_cases h1 : iequals p.extension [46, 112, 97, 107] = true
        · rw [if_pos h1] at h
          cases ho : openPak bytes with
          | ub => rw [ho] at h; cases h
          | error =>
            rw [ho] at h
            simp only [Outcome.ok.injEq, Prod.mk.injEq] at h
            rw [← h.1, ← h.2]; exact .refused p
          | ok pack =>
            rw [ho] at h
            simp only [Outcome.ok.injEq, Prod.mk.injEq] at h
            rw [← h.1, ← h.2]
            exact .arcNew p i bytes pack hp hn (Or.inl ⟨(iequals_sameText _ _).mp h1, ho⟩)
        · rw [if_neg h1] at h
          by_cases h2 : iequals p.extension [46, 119, 97, 100] = true
          · rw [if_pos h2] at h
            cases ho : openWad bytes with
            | ub => rw [ho] at h; cases h
            | error =>
              rw [ho] at h
              simp only [Outcome.ok.injEq, Prod.mk.injEq] at h
              rw [← h.1, ← h.2]; exact .refused p
            | ok pack =>
              rw [ho] at h
              simp only [Outcome.ok.injEq, Prod.mk.injEq] at h
              rw [← h.1, ← h.2]
              exact .arcNew p i bytes pack hp hn
                (Or.inr ⟨fun hs => h1 ((iequals_sameText _ _).mpr hs), (iequals_sameText _ _).mp h2, ho⟩)
          · rw [if_neg h2] at h
            simp only [Outcome.ok.injEq, Prod.mk.injEq] at h
            rw [← h.1, ← h.2]; exact .refused p

/-- The path `addArchive` settles on. -/
def settled (d : Disk) (p : Path) : Path := if (d p).there then p else p.filename

theorem addArchive_added {d : Disk} {st st' : State} {p : Path} {ext : Bool} {r : Option Ref}
    (h : addArchive d st p ext = .ok (st', r)) : Added d st ext (settled d p) st' r := by
  unfold addArchive at h
  by_cases he : p.isEmpty = true
  · rw [if_pos he] at h
    simp only [Outcome.ok.injEq, Prod.mk.injEq] at h
    rw [← h.1, ← h.2]; exact .refused _
  · rw [if_neg he] at h
    by_cases ht : (d p).there = true
    · simp only [ht, Bool.not_true, Bool.false_eq_true, if_false] at h
      rw [settled, if_pos ht]
      exact addInternal_added h
    · have ht' : (d p).there = false := by simpa using ht
      rw [settled, if_neg ht]
      simp only [ht', Bool.not_false, if_true] at h
      by_cases hf : (d p.filename).there = true
      · simp only [hf, Bool.not_true, Bool.false_eq_true, if_false] at h
        exact addInternal_added h
      · have hf' : (d p.filename).there = false := by simpa using hf
        simp only [hf', Bool.not_false, if_true, Outcome.ok.injEq, Prod.mk.injEq] at h
        rw [← h.1, ← h.2]; exact .refused _

theorem addInternal_again {d : Disk} {st st' : State} {p : Path} {ext : Bool} {r : Option Ref}
    (h : addInternal d st p ext = .ok (st', r)) (ext' : Bool) (hr : r ≠ none ∨ ext' = ext) :
    addInternal d st' p ext' = .ok (st', r) := by
  have h0 := h
  unfold addInternal at h ⊢
  by_cases hdir : (d p).isDir = true
  · rw [if_pos hdir] at h ⊢
    cases hf : st.dirs.find? (fun a => same d a.path p) with
    | some a =>
      rw [hf] at h
      simp only [Outcome.ok.injEq, Prod.mk.injEq] at h
      rw [← h.1, hf, ← h.2]
    | none =>
      rw [hf] at h
      simp only [Outcome.ok.injEq, Prod.mk.injEq] at h
      rw [← h.1, ← h.2]
      simp only [List.find?_cons, same, beq_self_eq_true]
  · rw [if_neg hdir] at h ⊢
    cases hf : st.arcs.find? (fun a => same d a.path p) with
    | some a =>
      rw [hf] at h
      simp only [Outcome.ok.injEq, Prod.mk.injEq] at h
      rw [← h.1, hf, ← h.2]
    | none =>
      cases hr0 : r with
      | none =>
        have hst : st' = st := by
          have := addInternal_added h0
          rw [hr0] at this
          cases this; rfl
        rw [hst]
        rw [hf] at h ⊢
        rw [hr0, hst] at h
        rcases hr with hr | hr
        · exact absurd hr0 hr
        · rw [hr]; exact h
      | some ref =>
        have := addInternal_added h0
        rw [hr0] at this
        cases this with
        | dirKnown a ha hs hd => obtain ⟨i, hd⟩ := hd; simp [hd, Node.isDir] at hdir
        | arcKnown a ha hs =>
          have := List.find?_eq_none.mp hf a ha
          exact absurd ((same_iff _ _ _).mpr hs) this
        | dirNew hd hn => obtain ⟨i, hd⟩ := hd; simp [hd, Node.isDir] at hdir
        | arcNew id bytes pack hd hn ho => simp only [List.find?_cons, same, beq_self_eq_true]

theorem addArchive_again {d : Disk} {st st' : State} {p : Path} {ext : Bool} {r : Option Ref}
    (h : addArchive d st p ext = .ok (st', r)) (ext' : Bool) (hr : r ≠ none ∨ ext' = ext) :
    addArchive d st' p ext' = .ok (st', r) := by
  unfold addArchive at h ⊢
  by_cases he : p.isEmpty = true
  · rw [if_pos he] at h ⊢
    simp only [Outcome.ok.injEq, Prod.mk.injEq] at h
    rw [← h.1, ← h.2]
  · rw [if_neg he] at h ⊢
    by_cases ht : (d p).there = true
    · simp only [ht, Bool.not_true, Bool.false_eq_true, if_false] at h ⊢
      exact addInternal_again h ext' hr
    · have ht' : (d p).there = false := by simpa using ht
      simp only [ht', Bool.not_false, if_true] at h ⊢
      by_cases hf : (d p.filename).there = true
      · simp only [hf, Bool.not_true, Bool.false_eq_true, if_false] at h ⊢
        exact addInternal_again h ext' hr
      · have hf' : (d p.filename).there = false := by simpa using hf
        simp only [hf', Bool.not_false, if_true, Outcome.ok.injEq, Prod.mk.injEq] at h ⊢
        exact ⟨trivial, h.2⟩

end Verif.Archive
