import Verif.Archive.SearchProps

/-!
C131: loading the same file again.
-/

namespace Verif.Archive

open Verif
open Verif.Cmdlib (Str)

/-- What searches depend on in a registered archive. -/
def Arc.card (a : Arc) : Path × Bool × List (Str × Nat × Nat) := (a.path, a.external, a.pack.files)

/-- The bytes of a file on disk. -/
def fileBytes : Node → List Byte
  | .file _ bytes => bytes
  | _ => []

/-- What loading from an archive gives while its stream has not failed. -/
def pureLoad (d : Disk) (cards : List (Path × Bool × List (Str × Nat × Nat))) (path : Path) (name : Str) :
    Option (List Byte) :=
  match cards.find? fun c => decide (c.1 = path) with
  | none => none
  | some c => (find c.2.2 name).map fun v => slice (fileBytes (d path)) v.1 v.2

theorem loadArc_pure {d : Disk} (hw : Whole d) (arcs : List Arc) (path : Path) (name : Str)
    (h : ∀ a ∈ arcs, Opened d a) : (loadArc arcs path name).1 = pureLoad d (arcs.map Arc.card) path name := by
  induction arcs with
  | nil => rfl
  | cons a l ih =>
    unfold loadArc pureLoad
    rw [List.map_cons, List.find?_cons]
    by_cases hp : a.path = path
    · rw [if_pos hp]
      have : decide (a.card.1 = path) = true := by simp [Arc.card, hp]
      rw [this]
      obtain ⟨id, bytes, hd, haf, hf, hh⟩ := h a (List.mem_cons_self ..)
      have hwithin := hw _ _ _ hd haf
      have hl := (load_healthy hf (hh hwithin) hwithin name).2
      rw [← hf] at hl
      simp only [hl, Arc.card, ← hp, hd, fileBytes]
    · rw [if_neg hp]
      have : decide (a.card.1 = path) = false := by simp [Arc.card, hp]
      rw [this]
      have := ih (fun a ha => h a (List.mem_cons_of_mem _ ha))
      unfold pureLoad at this
      exact this

theorem findArcs_cards (st : State) (p : Path) : findArcs st p =
    ((st.arcs.map Arc.card).find? fun c => (find c.2.2 p.text).isSome).map fun c => (.arc c.1, p) := by
  unfold findArcs
  rw [List.find?_map, Option.map_map]
  rfl

theorem search_cards {d : Disk} {st st' : State} (hd : st'.dirs = st.dirs)
    (ha : st'.arcs.map Arc.card = st.arcs.map Arc.card) (p : Path) (loose : Bool) :
    search d st' p loose = search d st p loose := by
  unfold search pass archivePass findDirs
  rw [findArcs_cards, findArcs_cards, ha, hd]

theorem find_path {d : Disk} {arcs arcs' : List Arc} (h : arcs'.map Arc.card = arcs.map Arc.card) (p : Path) :
    (arcs'.find? fun a => same d a.path p).map (·.path) = (arcs.find? fun a => same d a.path p).map (·.path) := by
  have key : ∀ l : List Arc, (l.find? fun a => same d a.path p).map (·.path) =
      ((l.map Arc.card).find? fun c => same d c.1 p).map (·.1) := by
    intro l
    rw [List.find?_map, Option.map_map]
    rfl
  rw [key, key, h]

theorem addInternal_cards {d : Disk} {st st' : State} {p : Path} {r : Option Ref} {ext : Bool}
    (hd : st'.dirs = st.dirs) (ha : st'.arcs.map Arc.card = st.arcs.map Arc.card)
    (h : addInternal d st p ext = .ok (st, r)) : addInternal d st' p ext = .ok (st', r) := by
  have hp := find_path (d := d) ha p
  have h0 := addInternal_added h
  unfold addInternal at h ⊢
  by_cases hdir : (d p).isDir = true
  · rw [if_pos hdir] at h ⊢
    rw [hd]
    cases hf : st.dirs.find? (fun a => same d a.path p) with
    | some a =>
      rw [hf] at h
      simp only [Outcome.ok.injEq, Prod.mk.injEq, true_and] at h
      simp only [h]
    | none =>
      rw [hf] at h
      simp only [Outcome.ok.injEq, Prod.mk.injEq] at h
      have := congrArg (fun s : State => s.dirs.length) h.1
      simp at this
  · rw [if_neg hdir] at h ⊢
    cases hf : st.arcs.find? (fun a => same d a.path p) with
    | some a =>
      rw [hf] at h hp
      simp only [Outcome.ok.injEq, Prod.mk.injEq, true_and] at h
      cases hf' : st'.arcs.find? (fun a => same d a.path p) with
      | none => rw [hf'] at hp; simp at hp
      | some b =>
        rw [hf'] at hp
        simp only [Option.map_some, Option.some.injEq] at hp
        simp only [hp, h]
    | none =>
      rw [hf] at h hp
      cases hf' : st'.arcs.find? (fun a => same d a.path p) with
      | some b => rw [hf'] at hp; simp at hp
      | none =>
        cases hdp : d p with
        | missing =>
          rw [hdp] at h
          simp only [Outcome.ok.injEq, Prod.mk.injEq, true_and] at h
          simp only [h]
        | dir i => simp [hdp, Node.isDir] at hdir
        | file i bytes =>
          rw [hdp] at h
          simp only at h ⊢
          split at h
          · rename_i pack hopen
            simp only [Outcome.ok.injEq, Prod.mk.injEq] at h
            have := congrArg (fun s : State => s.arcs.length) h.1
            simp at this
          · rename_i hopen
            simp only [Outcome.ok.injEq, Prod.mk.injEq, true_and] at h
            simp only [hopen, h]
          · cases h

theorem addArchive_cards {d : Disk} {st st' : State} {p : Path} {r : Option Ref} {ext : Bool}
    (hd : st'.dirs = st.dirs) (ha : st'.arcs.map Arc.card = st.arcs.map Arc.card)
    (h : addArchive d st p ext = .ok (st, r)) : addArchive d st' p ext = .ok (st', r) := by
  unfold addArchive at h ⊢
  by_cases he : p.isEmpty = true
  · rw [if_pos he] at h ⊢
    simp only [Outcome.ok.injEq, Prod.mk.injEq, true_and] at h
    rw [h]
  · rw [if_neg he] at h ⊢
    by_cases ht : (d p).there = true
    · simp only [ht, Bool.not_true, Bool.false_eq_true, if_false] at h ⊢
      exact addInternal_cards hd ha h
    · have ht' : (d p).there = false := by simpa using ht
      simp only [ht', Bool.not_false, if_true] at h ⊢
      by_cases hf : (d p.filename).there = true
      · simp only [hf, Bool.not_true, Bool.false_eq_true, if_false] at h ⊢
        exact addInternal_cards hd ha h
      · have hf' : (d p.filename).there = false := by simpa using hf
        simp only [hf', Bool.not_false, if_true, Outcome.ok.injEq, Prod.mk.injEq, true_and] at h ⊢
        exact h

theorem where_cards {d : Disk} {st st' : State} {p : Path} {loose : Bool} {r : Option (Ref × Path)}
    (hd : st'.dirs = st.dirs) (ha : st'.arcs.map Arc.card = st.arcs.map Arc.card)
    (h : Archive.where d st p loose = .ok (st, r)) : Archive.where d st' p loose = .ok (st', r) := by
  rcases where_cases h with ⟨hs, _, hr⟩ | ⟨a, f, ref, hs, h1, h2⟩
  · unfold Archive.where
    rw [hs, hr, search_cards hd ha]
  · have := addArchive_cards hd ha h1
    unfold Archive.where
    rw [hs]
    simp only [this, Outcome.ok_bind]
    cases ref with
    | none => rw [h2, search_cards hd ha]; rfl
    | some ref => rw [h2]; rfl

/-- C131, in every history: loading the same path again gives the same bytes, as long as no archive on disk is cut
off. -/
theorem load_again_partial (d : Disk) (hw : Whole d) (calls : List Call) (st st' st'' : State) (p : Path)
    (loose : Bool) (data data' : Option (List Byte)) (h : run d clear calls = .ok st)
    (h1 : Archive.load d st p loose = .ok (data, st')) (h2 : Archive.load d st' p loose = .ok (data', st'')) :
    data' = data := by
  have hg := run_good calls (clear_good d) h
  simp only [Archive.load, Outcome.bind_eq_ok, Outcome.pure_eq, Outcome.ok.injEq] at h1 h2
  obtain ⟨⟨s1, r1⟩, hw1, hl1⟩ := h1
  obtain ⟨⟨s2, r2⟩, hw2, hl2⟩ := h2
  have hg1 := (where_good hg hw1).1
  have hk := loadAt_good hg1 r1
  have e' : st' = (loadAt d s1 r1).2 := by rw [hl1]
  have hagain := search_again_partial d st s1 p loose r1 hw1
  have hst' := where_cards (st' := st') (by rw [e']; exact hk.2.1) (by rw [e']; exact hk.2.2) hagain
  rw [hst'] at hw2
  simp only [Outcome.ok.injEq, Prod.mk.injEq] at hw2
  rw [← hw2.1, ← hw2.2] at hl2
  have d1 : data = (loadAt d s1 r1).1 := by rw [hl1]
  have d2 : data' = (loadAt d st' r1).1 := by rw [hl2]
  rw [d1, d2]
  cases r1 with
  | none => rfl
  | some r =>
    obtain ⟨ref, q⟩ := r
    cases ref with
    | absrel => rfl
    | dir path => rfl
    | arc path =>
      have hg' : ∀ a ∈ st'.arcs, Opened d a := by rw [e']; exact hk.1.2
      have hc : st'.arcs.map Arc.card = s1.arcs.map Arc.card := by rw [e']; exact hk.2.2
      show (loadArc st'.arcs path q.text).1 = (loadArc s1.arcs path q.text).1
      rw [loadArc_pure hw _ _ _ hg', loadArc_pure hw _ _ _ hg1.2, hc]

example : Whole disk1 ∧ ∃ st st', run disk1 clear [.add (path ["p.pak"]) false] = .ok st ∧
    Archive.load disk1 st (path ["a"]) false = .ok (some [1], st') ∧
    Archive.load disk1 st' (path ["a"]) false = .ok (some [1], st') := by
  refine ⟨disk1_whole, ⟨[], [⟨path ["p.pak"], false, ⟨[(str "a", 12, 1)], ⟨pakA, 77, false⟩⟩⟩]⟩, loaded, ?_, ?_, ?_⟩ <;>
    decide +kernel

end Verif.Archive
