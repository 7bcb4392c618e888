import Verif.BspFile.Convert

/-!
Model of lumps of BSP files: `lump_reader` (common/bspfile.cc:2041-2135), `bspfile_t::write_lump`
(common/bspfile.cc:2337-2429), the Quake II visibility lump and the texture lump (common/bspfile_generic.cc:35-232).

Memory exhaustion is not modelled: an allocation fails only when its size is a converted negative number. When a read
fails, the real reader goes on with the values of a failed stream until the assertion at its end throws; the model stops
at once with the same error. Values that were never stored because a read failed are undefined behaviour when used.
-/

namespace Verif.BspFile

open Verif Verif.Stream

/-- `int` arithmetic: overflow is undefined. -/
def int32 (v : Int) : Outcome Int := if i32.lo ≤ v ∧ v ≤ i32.hi then .ok v else .ub

/-- Data that must have been read: the assertion after reading fails otherwise. -/
def need {α : Type} (r : Outcome (Option α × IStream)) : Outcome (α × IStream) :=
  match r with
  | .ok (some a, s) => .ok (a, s)
  | .ok (none, _) => .error
  | .error => .error
  | .ub => .ub

/-- Data that is used although reading it may have failed: undefined when it did. -/
def defined {α : Type} (r : Outcome (Option α × IStream)) : Outcome (α × IStream) :=
  match r with
  | .ok (some a, s) => .ok (a, s)
  | .ok (none, _) => .ub
  | .error => .error
  | .ub => .ub

/-- How the data of a lump is stored. -/
inductive LumpKind where
  /-- the entities: a string -/
  | text
  /-- bytes -/
  | raw
  /-- a vector of structures with the given fields; `size`: the size in the table of the version -/
  | recs (types : List Scalar) (size : Nat)
  /-- the Quake II visibility lump (`mvis_t`) -/
  | vis
  /-- the textures (`dmiptexlump_t`) -/
  | tex
  /-- a lump that is neither read nor written -/
  | unused
  deriving DecidableEq

/-- A texture: the bytes of the miptex, `none` for a null texture. Name, size and mip offsets are parsed from the bytes
when they are read. -/
abbrev Tex := Option (List Byte)

/-- The data of a lump in memory. -/
inductive LumpData where
  | text (s : List Byte)
  | raw (b : List Byte)
  | recs (rs : List (List Int))
  | vis (offsets : List (List Int)) (bits : List Byte)
  | tex (ts : List Tex)
  | unused
  deriving DecidableEq

/-! ### Writing -/

/-- `mvis_t::stream_write` (common/bspfile_generic.cc:75-90). -/
def visBytes (offsets : List (List Int)) (bits : List Byte) : List Byte :=
  if offsets.length = 0 then []
  else i32.encode offsets.length ++ offsets.flatMap (encodeFields [i32, i32]) ++ bits

/-- `mvis_t::header_offset` (common/bspfile_generic.cc:37-40). -/
def visHeader (offsets : List (List Int)) : Nat := 4 + 4 * offsets.length * 2

/-- `mvis_t::set_bit_offset` (common/bspfile_generic.cc:42-45); `type`: 0 (PVS) or 1 (PHS); `offset`: a `size_t`. -/
def setBitOffset (offsets : List (List Int)) (type cluster offset : Nat) : Outcome (List (List Int)) := do
  let r ← Outcome.readAt offsets cluster
  let r' ← Outcome.writeAt r type (i32.wrap (u64.wrap (offset + visHeader offsets : Nat)))
  Outcome.writeAt offsets cluster r'

/-- `mvis_t::get_bit_offset` (common/bspfile_generic.cc:47-50): the offset is converted to `size_t` and back. -/
def getBitOffset (offsets : List (List Int)) (type cluster : Nat) : Outcome Int := do
  let r ← Outcome.readAt offsets cluster
  let o ← Outcome.readAt r type
  pure (i32.wrap (u64.wrap (u64.wrap o - visHeader offsets)))

/-- The number of bytes up to the next multiple of 4, as the code computes it. -/
def padTo4 (n : Nat) : Nat := if n % 4 ≠ 0 then 4 - n % 4 else 0

/-- The offsets of `dmiptexlump_t::stream_write` (common/bspfile_generic.cc:188-213). `p`: the position in the stream
before the lump; `hs`: `header_size`; `off`: `miptex_offset`. -/
def texOffsets (p hs : Nat) (off : Nat) : List Tex → List Int
  | [] => []
  | none :: ts => -1 :: texOffsets p hs off ts
  | some d :: ts =>
    let off' := off + d.length
    i32.wrap (hs + off : Nat) :: texOffsets p hs (off' + padTo4 (p + off')) ts

/-- The data of `dmiptexlump_t::stream_write` (common/bspfile_generic.cc:215-224). `pos`: the position in the stream. -/
def texBody (pos : Nat) : List Tex → List Byte
  | [] => []
  | none :: ts => texBody pos ts
  | some d :: ts =>
    List.replicate (padTo4 pos) 0 ++ d ++ texBody (pos + padTo4 pos + d.length) ts

/-- `dmiptexlump_t::stream_write` (common/bspfile_generic.cc:186-225). -/
def texBytes (p : Nat) (ts : List Tex) : List Byte :=
  let hs := 4 + 4 * ts.length
  i32.encode ts.length ++ (texOffsets p hs 0 ts).flatMap (fun o => i32.encode o) ++ texBody (p + hs) ts

/-- `dmiptexlump_t::stream_size` (common/bspfile_generic.cc:227-232): the lump is written to a stream that counts the
bytes. -/
def texSize (ts : List Tex) : Int := (SizeStream.write ⟨0, 0⟩ (texBytes 0 ts).length).pos

/-- The bytes that are written for a lump at position `p`. Data of another kind cannot occur. -/
def lumpBytes (k : LumpKind) (p : Nat) (d : LumpData) : List Byte :=
  match k, d with
  | .text, .text s => s ++ [0]
  | .raw, .raw b => b
  | .recs types _, .recs rs => rs.flatMap (encodeFields types)
  | .vis, .vis offsets bits => visBytes offsets bits
  | .tex, .tex ts => texBytes p ts
  | _, _ => []

/-- The number of bytes that the assertion in `write_lump` expects (common/bspfile.cc:2359-2360, 2394); `mvis_t` and
`dmiptexlump_t` have none (common/bspfile.cc:2403-2429). -/
def expected (k : LumpKind) (d : LumpData) : Option Nat :=
  match k, d with
  | .text, .text s => some (s.length + 1)
  | .raw, .raw b => some (1 * b.length)
  | .recs _ size, .recs rs => some (size * rs.length)
  | _, _ => none

/-- The file that is being written (the stream is at its end) and the directory (`lumps` of the header). -/
structure WState where
  out : List Byte
  dir : List (Int × Int)
  deriving DecidableEq

/-- `bspfile_t::write_lump` (common/bspfile.cc:2337-2366, 2372-2400, 2403-2429). -/
def writeLump (k : LumpKind) (i : Nat) (d : LumpData) (st : WState) : Outcome WState := do
  let fileofs := i32.wrap st.out.length
  let out := st.out ++ lumpBytes k st.out.length d
  let written ← int32 (i32.wrap out.length - fileofs)
  if (match expected k d with | some n => decide (u64.wrap written ≠ n) | none => false) then .error
  else
    let pad := if written.tmod 4 ≠ 0 then (4 - written.tmod 4).toNat else 0
    pure ⟨out ++ List.replicate pad 0, st.dir.set i (fileofs, written)⟩

/-! ### Reading -/

/-- `mvis_t::stream_read` (common/bspfile_generic.cc:57-73). -/
def readVis (s : IStream) (ofs len : Int) : Outcome (LumpData × IStream) := do
  let n ← defined (s.scalar i32)
  if n.1 < 0 then .error
  else
    let offs ← need (n.2.records [i32, i32] n.1.toNat)
    let used ← int32 (i32.wrap offs.2.pos - ofs)
    let remaining ← int32 (len - used)
    if remaining < 0 then .error
    else
      let bits ← need (offs.2.read remaining.toNat)
      pure (.vis offs.1 bits.1, bits.2)

/-- The fields of `dmiptex_t` (include/common/bspfile_generic.hh:87-96). -/
def miptexTypes : List Scalar := List.replicate 16 i8 ++ [u32, u32] ++ List.replicate 4 i32

/-- `miptex_t::stream_read` (common/bspfile_generic.cc:111-125). The name is the C string in the 16 bytes of
`dmiptex_t::name`; without a NUL it is read beyond its end. -/
def readMiptex (s : IStream) (n : Nat) : Outcome (List Byte × IStream) := do
  let d ← need (s.read n)
  let h ← defined ((IStream.open d.1).fields miptexTypes)
  if 0 ∈ h.1.take 16 then pure d else .ub

/-- The end of the data of a texture (common/bspfile_generic.cc:163-178): the next valid offset, or the end of the
lump. -/
def nextOffset (len : Int) (rest : List Int) : Int :=
  match rest.find? (fun o => decide (0 ≤ o)) with
  | some o => o
  | none => len

/-- The loop of `dmiptexlump_t::stream_read` over the textures (common/bspfile_generic.cc:147-183). -/
def readTexs (ofs len : Int) : IStream → List Int → Outcome (List Tex × IStream)
  | s, [] => .ok ([], s)
  | s, o :: rest =>
    if o < 0 then do
      let r ← readTexs ofs len s rest
      pure (none :: r.1, r.2)
    else do
      let at_ ← int32 (ofs + o)
      let s1 := s.seek at_
      let next := nextOffset len rest
      let d ← if next > o then readMiptex s1 (next - o).toNat else .ok ([], s1)
      let r ← readTexs ofs len d.2 rest
      pure (some d.1 :: r.1, r.2)

/-- `dmiptexlump_t::stream_read` (common/bspfile_generic.cc:134-184). -/
def readTex (s : IStream) (ofs len : Int) : Outcome (LumpData × IStream) := do
  let n ← defined (s.scalar i32)
  if n.1 < 0 then .error
  else
    let offs ← need (n.2.fields (List.replicate n.1.toNat i32))
    let ts ← readTexs ofs len offs.2 offs.1
    if ts.2.failed then .error else pure (.tex ts.1, ts.2)

/-- The string of the entities: one NUL at the end is removed (common/bspfile.cc:2105-2111). -/
def chop (bs : List Byte) : List Byte := if bs.getLast? = some 0 then bs.dropLast else bs

/-- `lump_reader::read` (common/bspfile.cc:2048-2134). A negative length is converted to a huge number, for which the
allocation throws; `mvis_t` and `dmiptexlump_t` are read without one. -/
def readLump (s : IStream) (k : LumpKind) (ofs len : Int) : Outcome (LumpData × IStream) :=
  match k with
  | .text =>
    if len < 0 then .error
    else if len = 0 then .ok (.text [], s)
    else do
      let r ← need ((s.seek ofs).read len.toNat)
      pure (.text (chop r.1), r.2)
  | .raw =>
    if len < 0 then .error
    else if len = 0 then .ok (.raw [], s)
    else do
      let r ← need ((s.seek ofs).read len.toNat)
      pure (.raw r.1, r.2)
  | .recs types size =>
    if len < 0 then .error
    else if len % size ≠ 0 then .error
    else if len = 0 then .ok (.recs [], s)
    else do
      let r ← need ((s.seek ofs).records types (len / size).toNat)
      pure (.recs r.1, r.2)
  | .vis => if len = 0 then .ok (.vis [] [], s) else readVis (s.seek ofs) ofs len
  | .tex => if len = 0 then .ok (.tex [], s) else readTex (s.seek ofs) ofs len
  | .unused => .ok (.unused, s)

end Verif.BspFile
