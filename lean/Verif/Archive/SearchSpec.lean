import Verif.Archive.Spec

/-!
What a search for a file should find: the places to look at, in order, and the files on disk that are archives.
-/

namespace Verif.Archive

open Verif
open Verif.Cmdlib (Str)
open Verif.Cmdlib.Spec (SameText)

/-- A place to look for a file. -/
inductive Place
  | loose
  | dir (a : Dir)
  | arc (a : Arc)

/-- A place has something under a name: the path itself is a file (a directory does not count), the registered
directory has something at that path below it, or the registered archive has an entry of that name. -/
def Place.Has (d : Disk) (p : Path) : Place → Prop
  | .loose => ∃ id bytes, d p = .file id bytes
  | .dir a => d ⟨a.path.abs, a.path.parts ++ p.parts⟩ ≠ .missing
  | .arc a => a.pack.contains p.text = true

/-- What a search answers when it settles on a place. -/
def Place.answer (p : Path) : Place → Ref × Path
  | .loose => (.absrel, p)
  | .dir a => (.dir a.path, p)
  | .arc a => (.arc a.path, p)

/-- The places in order. Directories and archives are listed with the one registered last in front. -/
def order (st : State) (p : Path) (preferLoose : Bool) : List Place :=
  if p.abs then [.loose]
  else if preferLoose then .loose :: (st.dirs.map .dir ++ st.arcs.map .arc)
  else st.arcs.map .arc ++ st.dirs.map .dir ++ [.loose]

/-- `r` is the answer of the first place that has the file, and nothing if no place has it. -/
def FirstOf (d : Disk) (p : Path) (places : List Place) : Option (Ref × Path) → Prop
  | none => ∀ q ∈ places, ¬ q.Has d p
  | some r => ∃ l q m, places = l ++ q :: m ∧ q.Has d p ∧ r = q.answer p ∧ ∀ q' ∈ l, ¬ q'.Has d p

/-- No part of the path but the whole is a regular file. -/
def Plain (d : Disk) (p : Path) : Prop :=
  ∀ n, 0 < n → n < p.parts.length → ∀ id bytes, d ⟨p.abs, p.parts.take n⟩ ≠ .file id bytes

open Classical in
/-- The directory of an archive file, by the extension of its path. -/
noncomputable def directoryOf (p : Path) (bytes : List Byte) : List Entry :=
  if SameText p.extension [46, 112, 97, 107] then pakDirectory bytes else wadDirectory bytes

/-- A file is an archive by its extension and its contents. -/
def ArchiveFile (p : Path) (bytes : List Byte) : Prop :=
  (SameText p.extension [46, 112, 97, 107] ∧ PakSound bytes) ∨
    (¬ SameText p.extension [46, 112, 97, 107] ∧ SameText p.extension [46, 119, 97, 100] ∧ WadSound bytes)

/-- No archive on disk has an entry that reaches beyond its end. -/
def Whole (d : Disk) : Prop :=
  ∀ p id bytes, d p = .file id bytes → ArchiveFile p bytes → ∀ e ∈ directoryOf p bytes, Within bytes e

/-- The search path is in order: the registered directories are directories and the registered archives files on
disk, and none is registered twice. -/
structure Registry (d : Disk) (st : State) : Prop where
  dirs : ∀ a ∈ st.dirs, ∃ id, d a.path = .dir id
  arcs : ∀ a ∈ st.arcs, ∃ id bytes, d a.path = .file id bytes
  dirsOnce : st.dirs.Pairwise fun a b => (d a.path).id? ≠ (d b.path).id?
  arcsOnce : st.arcs.Pairwise fun a b => (d a.path).id? ≠ (d b.path).id?

end Verif.Archive
