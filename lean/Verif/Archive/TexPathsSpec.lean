import Verif.Archive.TexPaths

/-!
What C210 says, apart from the model.
-/

namespace Verif.Archive.Wads.Spec

open Verif.Cmdlib (Str)

/-- There is an archive at a path. -/
def IsArc (d : Disk) (p : Path) : Prop := ∃ id bytes, d p = .file id bytes ∧ ArchiveFile p bytes

/-- The file at a path is registered. -/
def Registered (d : Disk) (st : State) (p : Path) : Prop := ∃ a ∈ st.arcs, (d a.path).id? = (d p).id?

/-- Neither a path nor a file of its name in the working directory exists. -/
def Nowhere (d : Disk) (p : Path) : Prop := d p = .missing ∧ d p.filename = .missing

/-- Where a wad is: at an absolute path; or, if there is nothing of its name below the wad paths before and in the working
directory, at a path below one of the wad paths, or (if this does not exist) under its bare name in the working directory; or at
its path from the working directory, if there is nothing for any of the wad paths. -/
inductive At (d : Disk) (ws : List WadPath) (p : Path) : Path → Prop
  | absolute : p.abs = true → At d ws p p
  | below (before : List WadPath) (w : WadPath) (after : List WadPath) : p.abs = false → ws = before ++ w :: after →
      (∀ v ∈ before, Nowhere d (v.1.join p)) → At d ws p (w.1.join p)
  | beside (before : List WadPath) (w : WadPath) (after : List WadPath) : p.abs = false → ws = before ++ w :: after →
      (∀ v ∈ before, Nowhere d (v.1.join p)) → d (w.1.join p) = .missing → At d ws p (w.1.join p).filename
  | here : p.abs = false → (∀ v ∈ ws, Nowhere d (v.1.join p)) → At d ws p p

/-- The parts of a text between semicolons; a semicolon at the end ends the last part. -/
def IsParts (s : Str) (l : List Str) : Prop :=
  (∀ p ∈ l, 59 ∉ p) ∧ (s = (l.map (· ++ [59])).flatten ∨ ∃ t, t ≠ [] ∧ l.getLast? = some t ∧ s ++ [59] = (l.map (· ++ [59])).flatten)

end Verif.Archive.Wads.Spec
