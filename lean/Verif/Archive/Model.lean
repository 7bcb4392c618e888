import Verif.Common.Outcome
import Verif.Common.LE
import Verif.Cmdlib.Model

/-!
Model of common/fs.cc: pak and wad archives, and the search path made of directories and archives.

Simplifications: files do not change while the tool runs, opening an existing file for reading succeeds, and
memory does not run out (`files.reserve`, `std::vector<uint8_t> data(size)`). `std::unordered_map` with
`case_insensitive_hash` and `case_insensitive_equal` is an association list searched with the equality alone; C62
shows that equal keys have equal hashes.
-/

namespace Verif.Archive

open Verif
open Verif.Cmdlib (Str iequals iequalC)

/-! ### Input streams -/

/-- A `std::ifstream` over a file: its bytes, the position and whether `failbit` is set. -/
structure Stream where
  bytes : List Byte
  pos : Nat
  failed : Bool
  deriving DecidableEq, Repr

/-- `stream.read(dst, n)`: the bytes stored in `dst`. A stream that has failed stores nothing; a read that meets
the end of the file stores what is there and sets `failbit`, which nothing in common/fs.cc clears. -/
def Stream.read (s : Stream) (n : Nat) : List Byte × Stream :=
  if s.failed then ([], s)
  else
    let got := (s.bytes.drop s.pos).take n
    (got, { s with pos := s.pos + got.length, failed := decide (got.length < n) })

/-- `stream.seekg(p)`, without effect on a stream that has failed. -/
def Stream.seek (s : Stream) (p : Nat) : Stream :=
  if s.failed then s else { s with pos := p }

/-- `stream >= field` for a field of `n` bytes that has no initial value (include/common/cmdlib.hh:353-420): `none`
is the indeterminate value a short read leaves behind. Arrays are read element by element, to the same effect. -/
def Stream.get (s : Stream) (n : Nat) : Option (List Byte) × Stream :=
  let r := s.read n
  (if r.1.length = n then some r.1 else none, r.2)

/-- Using the value of a field. -/
def use {α : Type} : Option α → Outcome α
  | some a => .ok a
  | none => .ub

/-- A `std::string` made from `name.data()`, where `name` is a `char` array: without a NUL in the array the
constructor reads past its end. -/
def cname (field : List Byte) : Outcome Str :=
  if (0 : Byte) ∈ field then .ok ((field.takeWhile (· ≠ 0)).map UInt8.ofBitVec) else .ub

/-! ### Archives -/

/-- An opened `pak_archive` or `wad_archive` (common/fs.cc:64-87, 136-167): the directory, name to offset and size,
and the stream. -/
structure Pack where
  files : List (Str × Nat × Nat)
  stream : Stream
  deriving DecidableEq, Repr

/-- `files[key] = value` (common/fs.cc:114, 192). -/
def insert : List (Str × Nat × Nat) → Str → Nat × Nat → List (Str × Nat × Nat)
  | [], k, v => [(k, v)]
  | (k', v') :: l, k, v => if iequalC k' k then (k', v) :: l else (k', v') :: insert l k v

/-- `files.find(name)` (common/fs.cc:118, 122, 196, 200). -/
def find (files : List (Str × Nat × Nat)) (name : Str) : Option (Nat × Nat) :=
  (files.find? fun f => iequalC f.1 name).map (·.2)

/-- One round of the loop of `pak_archive::pak_archive` (common/fs.cc:109-115) on a `pak_file`
(common/fs.cc:77-84). -/
def pakEntry (files : List (Str × Nat × Nat)) (s : Stream) : Outcome (List (Str × Nat × Nat) × Stream) := do
  let r1 := s.get 56
  let r2 := r1.2.get 4
  let r3 := r2.2.get 4
  let field ← use r1.1
  let name ← cname field
  let offset ← use r2.1
  let size ← use r3.1
  pure (insert files name (leDecode offset, leDecode size), r3.2)

/-- One round of the loop of `wad_archive::wad_archive` (common/fs.cc:187-193) on a `wad_lump_header`
(common/fs.cc:153-164). The padding is passed over with `seekg(2, cur)`. -/
def wadEntry (files : List (Str × Nat × Nat)) (s : Stream) : Outcome (List (Str × Nat × Nat) × Stream) := do
  let r1 := s.get 4
  let r2 := r1.2.get 4
  let r3 := r2.2.get 4
  let r4 := r3.2.get 1
  let r5 := r4.2.get 1
  let s6 := r5.2.seek (r5.2.pos + 2)
  let r7 := s6.get 16
  let field ← use r7.1
  let name ← cname field
  let filepos ← use r1.1
  let disksize ← use r2.1
  pure (insert files name (leDecode filepos, leDecode disksize), r7.2)

/-- The loops over the directory, `n` rounds (common/fs.cc:109-115, 187-193). -/
def entries (entry : List (Str × Nat × Nat) → Stream → Outcome (List (Str × Nat × Nat) × Stream)) :
    Nat → List (Str × Nat × Nat) → Stream → Outcome (List (Str × Nat × Nat) × Stream)
  | 0, files, s => .ok (files, s)
  | n + 1, files, s => do
    let r ← entry files s
    entries entry n r.1 r.2

/-- The bytes of an ASCII text. -/
def ascii (s : String) : List Byte := s.toList.map fun c => BitVec.ofNat 8 c.toNat

/-- `pak_archive::pak_archive` (common/fs.cc:89-116). -/
def openPak (bytes : List Byte) : Outcome Pack := do
  let r1 := (Stream.mk bytes 0 false).get 4
  let r2 := r1.2.get 4
  let r3 := r2.2.get 4
  let magic ← use r1.1
  if magic ≠ ascii "PACK" then .error
  else do
    let offset ← use r2.1
    let size ← use r3.1
    let r ← entries pakEntry (leDecode size / 64) [] (r3.2.seek (leDecode offset))
    pure ⟨r.1, r.2⟩

/-- `wad_archive::wad_archive` (common/fs.cc:169-194). -/
def openWad (bytes : List Byte) : Outcome Pack := do
  let r1 := (Stream.mk bytes 0 false).get 4
  let r2 := r1.2.get 4
  let r3 := r2.2.get 4
  let ident ← use r1.1
  if ident ≠ ascii "WAD2" ∧ ident ≠ ascii "WAD3" then .error
  else do
    let numlumps ← use r2.1
    let infotableofs ← use r3.1
    let r ← entries wadEntry (leDecode numlumps) [] (r3.2.seek (leDecode infotableofs))
    pure ⟨r.1, r.2⟩

/-- `contains` of a pak or wad (common/fs.cc:118, 196); the name is `filename.generic_string()`. -/
def Pack.contains (p : Pack) (name : Str) : Bool := (find p.files name).isSome

/-- `load` of a pak or wad (common/fs.cc:120-133, 198-211). The result starts out zeroed and is returned whether or
not the read succeeded. -/
def Pack.load (p : Pack) (name : Str) : Option (List Byte) × Pack :=
  match find p.files name with
  | none => (none, p)
  | some (offset, size) =>
    let r := (p.stream.seek offset).read size
    (some (r.1 ++ List.replicate (size - r.1.length) 0), { p with stream := r.2 })

/-! ### Paths and files -/

/-- A `std::filesystem::path` on a POSIX system: whether it starts at the root, and its components, none of them
`.`, `..` or empty. -/
structure Path where
  abs : Bool
  parts : List Str
  deriving DecidableEq, Repr

/-- `path::empty`. -/
def Path.isEmpty (p : Path) : Bool := !p.abs && p.parts.isEmpty

/-- `operator/`. -/
def Path.join (p q : Path) : Path := if q.abs then q else ⟨p.abs, p.parts ++ q.parts⟩

/-- `path::filename`. -/
def Path.filename (p : Path) : Path :=
  match p.parts.getLast? with
  | some n => ⟨false, [n]⟩
  | none => ⟨false, []⟩

/-- `path::parent_path`. -/
def Path.parent (p : Path) : Path := ⟨p.abs, p.parts.dropLast⟩

/-- `path::extension`: of the last component, from its last dot on, unless that dot is its first character. -/
def Path.extension (p : Path) : Str :=
  match p.parts.getLast? with
  | none => []
  | some n =>
    let r := n.reverse
    let tail := r.takeWhile (· ≠ 46)
    if tail.length + 1 < r.length then 46 :: tail.reverse else []

/-- `path::generic_string`. -/
def Path.text (p : Path) : Str := (if p.abs then [47] else []) ++ List.intercalate [47] p.parts

/-- What a path leads to: nothing, a directory or a regular file; the number tells apart files and directories that
are not `equivalent`. -/
inductive Node
  | missing
  | dir (id : Nat)
  | file (id : Nat) (bytes : List Byte)
  deriving DecidableEq, Repr

def Node.there : Node → Bool
  | .missing => false
  | _ => true

def Node.isDir : Node → Bool
  | .dir _ => true
  | _ => false

def Node.isFile : Node → Bool
  | .file _ _ => true
  | _ => false

def Node.id? : Node → Option Nat
  | .missing => none
  | .dir i => some i
  | .file i _ => some i

/-- The files of the machine, as seen from the working directory. -/
abbrev Disk := Path → Node

/-- `equivalent(p, q)` for paths that exist. -/
def same (d : Disk) (p q : Path) : Bool := (d p).id? == (d q).id?

/-! ### The search path -/

/-- A registered `directory_archive`. -/
structure Dir where
  path : Path
  external : Bool
  deriving DecidableEq, Repr

/-- A registered `pak_archive` or `wad_archive`. -/
structure Arc where
  path : Path
  external : Bool
  pack : Pack
  deriving DecidableEq, Repr

/-- `directories` and `archives` (common/fs.cc:215). -/
structure State where
  dirs : List Dir
  arcs : List Arc
  deriving DecidableEq, Repr

/-- The archive a `resolve_result` points to: `absrel_dir` (common/fs.cc:214), or a registered directory or archive,
named by its `pathname`. -/
inductive Ref
  | absrel
  | dir (path : Path)
  | arc (path : Path)
  deriving DecidableEq, Repr

/-- `directory_archive::contains` (common/fs.cc:38-41) with a non-empty `pathname`. -/
def Dir.contains (d : Disk) (a : Dir) (p : Path) : Bool := (d (a.path.join p)).there

/-- `directory_archive::load` (common/fs.cc:43-61); `p` is the joined path. `file_size` of a directory throws. -/
def loadFile (d : Disk) (p : Path) : Option (List Byte) :=
  match d p with
  | .file _ bytes => some bytes
  | _ => none

/-- `addArchiveInternal` (common/fs.cc:224-265). -/
def addInternal (d : Disk) (st : State) (p : Path) (external : Bool) : Outcome (State × Option Ref) :=
  if (d p).isDir then
    match st.dirs.find? fun a => same d a.path p with
    | some a => .ok (st, some (.dir a.path))
    | none => .ok ({ st with dirs := ⟨p, external⟩ :: st.dirs }, some (.dir p))
  else
    match st.arcs.find? fun a => same d a.path p with
    | some a => .ok (st, some (.arc a.path))
    | none =>
      match d p with
      | .file _ bytes =>
        let opened : Outcome Pack :=
          if iequals p.extension [46, 112, 97, 107] then openPak bytes
          else if iequals p.extension [46, 119, 97, 100] then openWad bytes
          else .error
        match opened with
        | .ok pack => .ok ({ st with arcs := ⟨p, external, pack⟩ :: st.arcs }, some (.arc p))
        | .error => .ok (st, none)
        | .ub => .ub
      | _ => .ok (st, none)

/-- `addArchive` (common/fs.cc:267-287). -/
def addArchive (d : Disk) (st : State) (p : Path) (external : Bool) : Outcome (State × Option Ref) :=
  if p.isEmpty then .ok (st, none)
  else if !(d p).there then
    if !(d p.filename).there then .ok (st, none) else addInternal d st p.filename external
  else addInternal d st p external

/-- The loop of `splitArchivePath` (common/fs.cc:347-351) over the path's first `n` components, `n - 1`, …, 1. -/
def splitLoop (d : Disk) (source : Path) : Nat → Option (Path × Path)
  | 0 => none
  | n + 1 =>
    if (d ⟨source.abs, source.parts.take (n + 1)⟩).isFile then
      some (⟨source.abs, source.parts.take (n + 1)⟩, ⟨false, source.parts.drop (n + 1)⟩)
    else splitLoop d source n

/-- `splitArchivePath` (common/fs.cc:341-354). -/
def splitPath (d : Disk) (source : Path) : Option (Path × Path) := splitLoop d source (source.parts.length - 1)

/-- The pass over the absolute or relative path itself (common/fs.cc:306-308). -/
def findLoose (d : Disk) (p : Path) : Option (Ref × Path) :=
  if (d p).there && !(d p).isDir then some (.absrel, p) else none

/-- The loop over `directories` (common/fs.cc:313-317). -/
def findDirs (d : Disk) (st : State) (p : Path) : Option (Ref × Path) :=
  (st.dirs.find? fun a => a.contains d p).map fun a => (.dir a.path, p)

/-- The loop over `archives` (common/fs.cc:313-317). -/
def findArcs (st : State) (p : Path) : Option (Ref × Path) :=
  (st.arcs.find? fun a => a.pack.contains p.text).map fun a => (.arc a.path, p)

/-- One round of the loop over `archive_pass` (common/fs.cc:310-318). -/
def archivePass (d : Disk) (st : State) (p : Path) (preferLoose : Bool) (archivePass : Bool) : Option (Ref × Path) :=
  if preferLoose != archivePass then findDirs d st p else findArcs st p

/-- One round of the loop over `pass` (common/fs.cc:300-320). -/
def pass (d : Disk) (st : State) (p : Path) (preferLoose : Bool) (pass : Bool) : Option (Ref × Path) :=
  if preferLoose != pass then findLoose d p
  else if !p.abs then
    (archivePass d st p preferLoose false).orElse fun _ => archivePass d st p preferLoose true
  else none

/-- The two passes of `where` (common/fs.cc:300-322). -/
def search (d : Disk) (st : State) (p : Path) (preferLoose : Bool) : Option (Ref × Path) :=
  (pass d st p preferLoose false).orElse fun _ => pass d st p preferLoose true

/-- `where` (common/fs.cc:289-323). -/
def «where» (d : Disk) (st : State) (p : Path) (preferLoose : Bool) : Outcome (State × Option (Ref × Path)) :=
  match splitPath d p with
  | some (archive, filename) => do
    let r ← addArchive d st archive false
    match r.2 with
    | some ref => pure (r.1, some (ref, filename))
    | none => pure (r.1, search d r.1 p preferLoose)
  | none => .ok (st, search d st p preferLoose)

/-- Loading from the first registered archive with the given pathname. -/
def loadArc : List Arc → Path → Str → Option (List Byte) × List Arc
  | [], _, _ => (none, [])
  | a :: l, path, name =>
    if a.path = path then
      let r := a.pack.load name
      (r.1, { a with pack := r.2 } :: l)
    else
      let r := loadArc l path name
      (r.1, a :: r.2)

/-- `load(const resolve_result &)` (common/fs.cc:325-334). -/
def loadAt (d : Disk) (st : State) : Option (Ref × Path) → Option (List Byte) × State
  | none => (none, st)
  | some (.absrel, p) => (loadFile d p, st)
  | some (.dir path, p) => (loadFile d (path.join p), st)
  | some (.arc path, p) =>
    let r := loadArc st.arcs path p.text
    (r.1, { st with arcs := r.2 })

/-- `load(const path &, bool)` (common/fs.cc:336-339). -/
def load (d : Disk) (st : State) (p : Path) (preferLoose : Bool) : Outcome (Option (List Byte) × State) := do
  let r ← «where» d st p preferLoose
  pure (loadAt d r.1 r.2)

/-- `clear` (common/fs.cc:218-222). -/
def clear : State := ⟨[], []⟩

/-- `resolveArchivePath` (common/fs.cc:356-363). -/
def resolvePath (d : Disk) (source : Path) : Path :=
  match splitPath d source with
  | some (archive, filename) => archive.parent.join filename
  | none => source

/-- A call of one of the functions that use the search path. -/
inductive Call
  | clear
  | add (p : Path) (external : Bool)
  | «where» (p : Path) (preferLoose : Bool)
  | load (p : Path) (preferLoose : Bool)
  deriving DecidableEq, Repr

/-- The search path after a call. -/
def step (d : Disk) (st : State) : Call → Outcome State
  | .clear => .ok Archive.clear
  | .add p external => do
    let r ← addArchive d st p external
    pure r.1
  | .where p loose => do
    let r ← Archive.where d st p loose
    pure r.1
  | .load p loose => do
    let r ← Archive.load d st p loose
    pure r.2

/-- The search path after a sequence of calls. -/
def run (d : Disk) (st : State) : List Call → Outcome State
  | [] => .ok st
  | c :: l => do
    let st' ← step d st c
    run d st' l

end Verif.Archive
