import Verif.Archive.SearchProps

/-!
C129: which bytes a load gives.
-/

namespace Verif.Archive

open Verif
open Verif.Cmdlib (Str)
open Verif.Cmdlib.Spec (SameText)

/-- The bytes a place has under a name: of the file at the path itself, of the file at that path below the directory,
or of the last entry of that name in the archive file. -/
def Place.Gives (d : Disk) (p : Path) (data : List Byte) : Place → Prop
  | .loose => ∃ id, d p = .file id data
  | .dir a => ∃ id, d ⟨a.path.abs, a.path.parts ++ p.parts⟩ = .file id data
  | .arc a => ∃ id bytes e, d a.path = .file id bytes ∧ Latest (directoryOf a.path bytes) p.text e ∧
      data = slice bytes e.offset e.size

theorem latest_exists (dir : List Entry) (name : Str) (h : ∃ e ∈ dir, SameText e.name name) :
    ∃ e, Latest dir name e := by
  induction dir with
  | nil => obtain ⟨e, he, _⟩ := h; cases he
  | cons a l ih =>
    by_cases hl : ∃ e ∈ l, SameText e.name name
    · obtain ⟨e, l', r, hs, hn, hr⟩ := ih hl
      exact ⟨e, a :: l', r, by rw [hs]; rfl, hn, hr⟩
    · obtain ⟨e, he, hs⟩ := h
      rcases List.mem_cons.mp he with rfl | he
      · exact ⟨e, [], l, rfl, hs, fun f hf hfs => hl ⟨f, hf, hfs⟩⟩
      · exact absurd ⟨e, he, hs⟩ hl

theorem loadArc_unique (d : Disk) (arcs : List Arc) (h : arcs.Pairwise fun a b => (d a.path).id? ≠ (d b.path).id?)
    (a : Arc) (ha : a ∈ arcs) (name : Str) : (loadArc arcs a.path name).1 = (a.pack.load name).1 := by
  induction arcs with
  | nil => cases ha
  | cons b l ih =>
    rw [List.pairwise_cons] at h
    rcases List.mem_cons.mp ha with rfl | ha
    · simp [loadArc]
    · have hne : b.path ≠ a.path := fun e => h.1 a ha (by rw [e])
      simp only [loadArc, if_neg hne]
      exact ih h.2 ha

/-- C129, what is loaded, in every history and without a direct archive path: a load that succeeds gives the bytes of
the first place that has the file. A load that fails means that no place has the file, or that the first place that
has something of that name is a directory that has a directory there. -/
theorem load_contents_partial (d : Disk) (hw : Whole d) (calls : List Call) (st : State)
    (hrun : run d clear calls = .ok st) (p : Path) (hp : Plain d p) (hz : (0 : UInt8) ∉ p.text) (loose : Bool) :
    ∃ r st', load d st p loose = .ok (r, st') ∧
      match r with
      | some data => ∃ l q m, order st p loose = l ++ q :: m ∧ q.Gives d p data ∧ ∀ q' ∈ l, ¬ q'.Has d p
      | none => (∀ q ∈ order st p loose, ¬ q.Has d p) ∨
          ∃ l a m id, order st p loose = l ++ .dir a :: m ∧
            d ⟨a.path.abs, a.path.parts ++ p.parts⟩ = .dir id ∧ ∀ q' ∈ l, ¬ q'.Has d p := by
  obtain ⟨r, hwhere, hf⟩ := search_order_partial d st p loose hp
  refine ⟨(loadAt d st r).1, (loadAt d st r).2, by simp [load, hwhere], ?_⟩
  cases r with
  | none => exact Or.inl hf
  | some r =>
    obtain ⟨l, q, m, hs, hq, rfl, hl⟩ := hf
    cases q with
    | loose =>
      obtain ⟨id, bytes, hd⟩ := hq
      simp only [Place.answer, loadAt, loadFile, hd]
      exact ⟨l, .loose, m, hs, ⟨id, hd⟩, hl⟩
    | dir a =>
      have habs : p.abs = false := by
        by_contra hne
        have ht : p.abs = true := by simpa using hne
        unfold order at hs
        rw [if_pos ht] at hs
        have hmem : Place.dir a ∈ [Place.loose] := by rw [hs]; simp
        rw [List.mem_singleton] at hmem
        cases hmem
      have hj : a.path.join p = ⟨a.path.abs, a.path.parts ++ p.parts⟩ := by simp [Path.join, habs]
      simp only [Place.answer, loadAt, loadFile, hj]
      cases hd : d ⟨a.path.abs, a.path.parts ++ p.parts⟩ with
      | missing => exact absurd hd hq
      | dir id => exact Or.inr ⟨l, a, m, id, hs, hd, hl⟩
      | file id bytes => exact ⟨l, .dir a, m, hs, ⟨id, hd⟩, hl⟩
    | arc a =>
      have ha : a ∈ st.arcs := by
        have hmem : Place.arc a ∈ order st p loose := by rw [hs]; simp
        unfold order at hmem
        split at hmem
        · rw [List.mem_singleton] at hmem; cases hmem
        · split at hmem
          · simpa using hmem
          · simpa using hmem
      obtain ⟨id, bytes, hd, hfa⟩ := registered_faithful d hw calls st hrun a ha
      obtain ⟨hc, hlat, _⟩ := hfa [] p.text hz
      obtain ⟨e, he⟩ := latest_exists _ _ (hc.mp hq)
      have hload := hlat e he
      have huni := loadArc_unique d st.arcs (registered_once d calls st hrun).arcsOnce a ha p.text
      have hval : (loadAt d st (some (Ref.arc a.path, p))).1 = some (slice bytes e.offset e.size) := by
        simp only [loadAt]
        rw [huni]
        exact hload
      simp only [Place.answer, hval]
      exact ⟨l, .arc a, m, hs, ⟨id, bytes, e, hd, he, rfl⟩, hl⟩

example : Whole disk1 ∧ Plain disk1 (path ["a"]) ∧ (0 : UInt8) ∉ (path ["a"]).text ∧
    run disk1 clear [.add (path ["p.pak"]) false, .load (path ["a"]) false] = .ok loaded ∧
    load disk1 loaded (path ["a"]) false = .ok (some [1], loaded) ∧
    load disk1 loaded (path ["a"]) true = .ok (some [2], loaded) :=
  ⟨disk1_whole, disk1_plain, by decide +kernel, by decide +kernel, by decide +kernel, by decide +kernel⟩

end Verif.Archive
