import Verif.BspFile.LumpSpec

/-!
Specification of BSP files: which data a file can hold, where everything lies, and when the game is recognised.
-/

namespace Verif.BspFile.Spec

open Verif Verif.Stream

/-- The lumps are those of the version, and their data fits. -/
def FileTyped (v : Ver) (d : FileBsp) : Prop :=
  d.lumps.length = v.lumps.length ∧
    ∀ (i : Nat) (k : LumpKind) (x : LumpData), v.lumps[i]? = some k → d.lumps[i]? = some x → Typed k x

/-- The size of the header: the identification, the version if there is one, and offset and length of each lump. -/
def headerSize (v : Ver) : Nat := 4 + (if v.version.isSome then 4 else 0) + 8 * v.lumps.length

/-- The next multiple of 4. -/
def roundUp (n : Nat) : Nat := (n + 3) / 4 * 4

/-- The size of the part of the file before the BSPX lumps. -/
def mainSize (v : Ver) (d : FileBsp) : Nat :=
  headerSize v + ((v.lumps.zip d.lumps).map fun e => roundUp (lumpBytes e.1 0 e.2).length).sum

/-- The size of the BSPX lumps: a header, 32 bytes of directory for each lump and its data. -/
def bspxSize (x : Bspx) : Nat := if x = [] then 0 else 8 + (x.map fun e => 32 + roundUp e.2.length).sum

/-- The size of the file. -/
def fileSize (v : Ver) (d : FileBsp) : Nat := mainSize v d + bspxSize d.bspx

/-- Names that a directory entry can hold, no two the same. -/
def NamesOk (x : Bspx) : Prop := (∀ e ∈ x, e.1.length ≤ 23 ∧ 0 ∉ e.1) ∧ (x.map Prod.fst).Nodup

/-- Two parts of a file, given by offset and length, do not overlap. -/
def Apart (a b : Nat × Nat) : Prop := a.1 + a.2 ≤ b.1 ∨ b.1 + b.2 ≤ a.1

/-- `bs` is in the file at offset `ofs`. -/
def At (file : List Byte) (ofs : Nat) (bs : List Byte) : Prop := ofs + bs.length ≤ file.length ∧ (file.drop ofs).take bs.length = bs

/-- The layout of a file: `dir`: offset and length of each lump; `base`: where the BSPX lumps start; `ext`: offset and
length of each BSPX lump. -/
structure Layout (v : Ver) (d : FileBsp) (file : List Byte) (dir : List (Nat × Nat)) (base : Nat)
    (ext : List (Nat × Nat)) : Prop where
  /-- The file starts with the header, which holds the directory. -/
  header : At file 0 (headerBytes v (dir.map fun e => ((e.1 : Int), (e.2 : Int))))
  dirLength : dir.length = v.lumps.length
  /-- Each lump is where the directory says. -/
  lumps : ∀ (i : Nat) (k : LumpKind) (x : LumpData), v.lumps[i]? = some k → d.lumps[i]? = some x → k ≠ .unused →
    ∃ e, dir[i]? = some e ∧ e.2 = (lumpBytes k e.1 x).length ∧ At file e.1 (lumpBytes k e.1 x)
  extLength : ext.length = d.bspx.length
  /-- The BSPX header and directory. -/
  extHeader : d.bspx ≠ [] → At file base (bspxId ++ u32.encode d.bspx.length ++
    (d.bspx.zip ext).flatMap fun e => lumpName e.1.1 ++ u32.encode e.2.1 ++ u32.encode e.2.2)
  /-- Each BSPX lump is where the directory says. -/
  exts : ∀ (i : Nat) (e : List Byte × List Byte) (o : Nat × Nat), d.bspx[i]? = some e → ext[i]? = some o →
    o.2 = e.2.length ∧ At file o.1 e.2
  /-- Everything is aligned. -/
  aligned : ∀ e ∈ dir ++ (base, 0) :: ext, e.1 % 4 = 0
  /-- Everything is in the file. -/
  inside : ∀ e ∈ dir ++ ext, e.1 + e.2 ≤ file.length
  /-- The header, the lumps, the BSPX header with its directory, and the BSPX lumps do not overlap. -/
  apart : ((0, headerSize v) :: dir ++ (base, if d.bspx = [] then 0 else 8 + 32 * d.bspx.length) :: ext).Pairwise Apart

/-- The records of a lump. -/
def recsOf (d : FileBsp) (i : Nat) : List (List Int) :=
  match d.lumps[i]? with
  | some (.recs rs) => rs
  | _ => []

/-- A field of a record. -/
def fld (r : List Int) (i : Nat) : Int := (r[i]?).getD 0

/-- A Hexen II model that refers to things that exist: `visleafs` (field 17), `firstface` (18), `numfaces` (19) and the
head nodes (9-16), the first of which is a node and the others clip nodes. -/
def ValidModel (faces nodes leafs clipnodes : Nat) (r : List Int) : Prop :=
  (0 ≤ fld r 17 ∧ fld r 17 ≤ leafs) ∧ 0 ≤ fld r 18 ∧ 0 ≤ fld r 19 ∧ fld r 18 + fld r 19 ≤ faces ∧ fld r 9 < nodes ∧
    ∀ j, 1 ≤ j → j ≤ 7 → fld r (9 + j) < clipnodes

/-- The game can be recognised. Quake and Hexen II files have the same identification and differ in the size of models
(64 or 80 bytes). For Quake: the number of models is not a multiple of 5, or the second model's second `mins` coordinate,
taken as a number, is not a number of leafs. For Hexen II: the number of models is not a multiple of 4, or all models are
valid. -/
def Recognisable (v : Ver) (d : FileBsp) : Prop :=
  match v.game with
  | .quake => (recsOf d 14).length % 5 ≠ 0 ∨
      ∃ r, (recsOf d 14)[1]? = some r ∧ (i32.wrap (fld r 1) < 0 ∨ (recsOf d 10).length < i32.wrap (fld r 1))
  | .hexen2 => (recsOf d 14).length % 4 ≠ 0 ∨ ∀ r ∈ recsOf d 14,
      ValidModel (recsOf d 7).length (recsOf d 5).length (recsOf d 10).length (recsOf d 9).length r
  | _ => True

end Verif.BspFile.Spec
