import Verif.BspFile.Lump

/-!
Model of loading and writing BSP files: `LoadBSPFile` (common/bspfile.cc:2199-2317), `WriteBSPFile`
(common/bspfile.cc:2525-2566), the tables of the versions (common/bspfile.cc:1574-1736) and the BSPX lumps
(common/bspfile.cc:2480-2516, common/bspxfile.cc:26-50).
-/

namespace Verif.BspFile

open Verif Verif.Stream

/-! ### Versions -/

/-- The file formats (`bspver_q1`, …, common/bspfile.cc:1575-1736). -/
inductive Ver where
  | q1
  | h2
  | h2bsp2
  | h2bsp2rmq
  | bsp2
  | bsp2rmq
  | hl
  | q2
  | qbism
  deriving DecidableEq

/-- The games that versions belong to. -/
inductive Game where
  | quake
  | hexen2
  | halflife
  | quake2
  deriving DecidableEq

/-- `bspversion_t::ident` (include/common/bspfile_q1.hh:33-36, include/common/bspfile_q2.hh:33-34). -/
def Ver.ident : Ver → Int
  | .q1 | .h2 => 29
  | .bsp2 | .h2bsp2 => 0x32505342
  | .bsp2rmq | .h2bsp2rmq => 0x42535032
  | .hl => 30
  | .q2 => 0x50534249
  | .qbism => 0x50534251

/-- `bspversion_t::version`. -/
def Ver.version : Ver → Option Int
  | .q2 | .qbism => some 38
  | _ => none

/-- `bspversion_t::game`. -/
def Ver.game : Ver → Game
  | .q1 | .bsp2 | .bsp2rmq => .quake
  | .h2 | .h2bsp2 | .h2bsp2rmq => .hexen2
  | .hl => .halflife
  | .q2 | .qbism => .quake2

/-- The structures that are read and written (common/bspfile.cc:2263-2276). -/
def Ver.family : Ver → Family
  | .q1 | .h2 | .hl => .bsp29
  | .bsp2rmq | .h2bsp2rmq => .rmq
  | .bsp2 | .h2bsp2 => .bsp2
  | .q2 => .q2
  | .qbism => .qbism

/-- Models have 8 hulls. -/
def Ver.hexen2 (v : Ver) : Bool := v.game = .hexen2

/-- `bspversions` without the generic version (include/common/bspfile.hh:55-56). -/
def versions : List Ver := [.q1, .h2, .h2bsp2, .h2bsp2rmq, .bsp2, .bsp2rmq, .hl, .q2, .qbism]

/-- `BSPVersionSupported` (common/bspfile.cc:1738-1754). The generic version is the first in the list; its `game` is a
null pointer. -/
def supported (ident : Int) (version : Option Int) : Outcome (Option Ver) :=
  if ident = -1 ∧ version = none then .ub
  else .ok (versions.find? fun v => v.ident = ident && v.version = version && v.game ≠ .hexen2)

/-- `dplane_t` (include/common/bspfile_generic.hh:191-193). -/
def planeTypes : List Scalar := [f32, f32, f32, f32, i32]

/-- The sizes in the tables of the versions (`sizeof` of the structures, common/bspfile.cc:1575-1736). -/
def sizeOf (f : Family) (hexen2 : Bool) : Arr → Nat
  | .nodes => match f with
    | .bsp29 => 24
    | .rmq => 32
    | .q2 => 28
    | _ => 44
  | .texinfo => match f with
    | .q2 | .qbism => 76
    | _ => 40
  | .faces => match f with
    | .bsp29 | .q2 => 20
    | _ => 28
  | .clipnodes => match f with
    | .bsp29 => 8
    | _ => 12
  | .leafs => match f with
    | .bsp29 | .q2 => 28
    | .rmq => 32
    | .bsp2 => 44
    | .qbism => 52
  | .leaffaces => match f with
    | .bsp29 | .q2 => 2
    | _ => 4
  | .leafbrushes => match f with
    | .q2 => 2
    | _ => 4
  | .edges => match f with
    | .bsp29 | .q2 => 4
    | _ => 8
  | .models => match f with
    | .q2 | .qbism => 48
    | _ => if hexen2 then 80 else 64
  | .brushsides => match f with
    | .q2 => 4
    | _ => 8

/-- A lump with records that depend on the format. -/
def Ver.arr (v : Ver) (a : Arr) : LumpKind := .recs (fileTypes v.family v.hexen2 a) (sizeOf v.family v.hexen2 a)

/-- The lumps of a version by number (include/common/bspfile_q1.hh:38-54, include/common/bspfile_q2.hh:36-57), with the
types of the members they are read into (common/bspfile.cc:2137-2182). -/
def Ver.lumps (v : Ver) : List LumpKind :=
  match v.game with
  | .quake2 =>
    [.text, .recs planeTypes 20, .recs [f32, f32, f32] 12, .vis, v.arr .nodes, v.arr .texinfo, v.arr .faces, .raw,
      v.arr .leafs, v.arr .leaffaces, v.arr .leafbrushes, v.arr .edges, .recs [i32] 4, v.arr .models,
      .recs [i32, i32, i32] 12, v.arr .brushsides, .unused, .recs [i32, i32] 8, .recs [i32, i32] 8]
  | _ =>
    [.text, .recs planeTypes 20, .tex, .recs [f32, f32, f32] 12, .raw, v.arr .nodes, v.arr .texinfo, v.arr .faces, .raw,
      v.arr .clipnodes, v.arr .leafs, v.arr .leaffaces, v.arr .edges, .recs [i32] 4, v.arr .models]

/-- The order in which lumps are written (common/bspfile.cc:2435-2478). -/
def Ver.writeOrder (v : Ver) : List Nat :=
  match v.game with
  | .quake2 => [1, 8, 2, 4, 5, 6, 9, 12, 11, 13, 10, 14, 15, 17, 18, 7, 3, 0]
  | _ => [1, 10, 3, 5, 6, 7, 9, 11, 13, 12, 14, 8, 4, 0, 2]

/-! ### Headers -/

/-- The fields of the header: `dheader_t` or `q2_dheader_t` (common/bspfile_q1.cc:26-34, common/bspfile_q2.cc:26-34). -/
def headerTypes (isQ2 : Bool) : List Scalar :=
  if isQ2 then i32 :: i32 :: List.replicate 38 i32 else i32 :: List.replicate 30 i32

/-- The directory as a list of fields. -/
def flat (dir : List (Int × Int)) : List Int := dir.flatMap fun e => [e.1, e.2]

/-- The directory from a list of fields. -/
def unflat : List Int → List (Int × Int)
  | a :: b :: r => (a, b) :: unflat r
  | _ => []

/-- The bytes of the header. -/
def headerBytes (v : Ver) (dir : List (Int × Int)) : List Byte :=
  match v.version with
  | some n => encodeFields (headerTypes true) (v.ident :: n :: flat dir)
  | none => encodeFields (headerTypes false) (v.ident :: flat dir)

/-! ### BSPX -/

/-- The BSPX lumps: names and data. The map is a list in the order of its iteration. -/
abbrev Bspx := List (List Byte × List Byte)

/-- `std::unordered_map::insert_or_assign`. -/
def assign (m : Bspx) (name data : List Byte) : Bspx :=
  if m.any (fun e => e.1 = name) then m.map (fun e => if e.1 = name then (name, data) else e) else m ++ [(name, data)]

/-- "BSPX". -/
def bspxId : List Byte := [0x42, 0x53, 0x50, 0x58]

/-- The name of a `bspx_lump_t` (common/bspfile.cc:2504): at most 23 bytes, the rest of the 24 are zero. -/
def lumpName (name : List Byte) : List Byte :=
  name.take (min name.length 23) ++ List.replicate (24 - min name.length 23) 0

/-- `bspx_lump_t` in the file (common/bspxfile.cc:42-50). -/
def bspxLumpBytes (name : List Byte) (ofs len : Int) : List Byte := name ++ u32.encode ofs ++ u32.encode len

/-- The data of the BSPX lumps, with the directory entries (common/bspfile.cc:2500-2510). -/
def writeBspxData (out : List Byte) : Bspx → List Byte × List Byte
  | [] => (out, [])
  | e :: rest =>
    let entry := bspxLumpBytes (lumpName e.1) (u32.wrap out.length) (u32.wrap e.2.length)
    let r := writeBspxData (out ++ e.2 ++ List.replicate (padTo4 e.2.length) 0) rest
    (r.1, entry ++ r.2)

/-- Writing at a position that was written before. -/
def overwrite (out : List Byte) (pos : Nat) (bs : List Byte) : List Byte :=
  out.take pos ++ bs ++ out.drop (pos + bs.length)

/-- `bspfile_t::write_bspx` (common/bspfile.cc:2480-2516). -/
def writeBspx (x : Bspx) (out : List Byte) : Outcome (List Byte) :=
  if x.length = 0 then .ok out
  else if out.length % 4 ≠ 0 then .error
  else
    let out1 := out ++ bspxId ++ u32.encode (u32.wrap x.length)
    let out2 := out1 ++ List.replicate (32 * x.length) 0
    let r := writeBspxData out2 x
    .ok (overwrite r.1 out1.length r.2)

/-! ### Writing -/

/-- A BSP of a file format: the data of its lumps by number, and the BSPX lumps. -/
structure FileBsp where
  lumps : List LumpData
  bspx : Bspx
  deriving DecidableEq

/-- `bspfile_t::write_bsp` (common/bspfile.cc:2435-2478): the lumps with the given numbers. -/
def writeLumps (kinds : List LumpKind) (data : List LumpData) : List Nat → WState → Outcome WState
  | [], st => .ok st
  | i :: is, st => do
    let k ← Outcome.readAt kinds i
    let d ← Outcome.readAt data i
    let st' ← writeLump k i d st
    writeLumps kinds data is st'

/-- `WriteBSPFile` (common/bspfile.cc:2525-2566): the contents of the file. Errors of the file system are not
modelled. -/
def writeBsp (v : Ver) (d : FileBsp) : Outcome (List Byte) := do
  let dir0 := List.replicate v.lumps.length ((0, 0) : Int × Int)
  let st ← writeLumps v.lumps d.lumps v.writeOrder ⟨headerBytes v dir0, dir0⟩
  let out ← writeBspx d.bspx st.out
  pure (overwrite out 0 (headerBytes v st.dir))

/-! ### Detecting Hexen II -/

/-- Reading an `int32_t` from the memory that holds the file. -/
def memI32 (mem : List Byte) (pos : Int) : Outcome Int :=
  if 0 ≤ pos ∧ pos + 4 ≤ mem.length then .ok (i32.decode ((mem.drop pos.toNat).take 4)) else .ub

/-- The checks of one model (common/bspfile.cc:2012-2034); `p`: where the model is in the file. The offsets are those of
`dmodelh2_t`: 9 floats, 8 head nodes, `visleafs`, `firstface`, `numfaces`. -/
def checkHeads (mem : List Byte) (p clipnodes : Int) : List Int → Outcome Bool
  | [] => .ok true
  | j :: js => do
    let h ← memI32 mem (p + 36 + 4 * j)
    if h ≥ clipnodes then pure false else checkHeads mem p clipnodes js

/-- See `checkHeads`. -/
def checkModel (mem : List Byte) (p faces nodes leafs clipnodes : Int) : Outcome Bool := do
  let visleafs ← memI32 mem (p + 68)
  if visleafs < 0 ∨ visleafs > leafs then pure false
  else
    let numfaces ← memI32 mem (p + 76)
    if numfaces < 0 then pure false
    else
      let firstface ← memI32 mem (p + 72)
      if firstface < 0 then pure false
      else
        let e ← int32 (firstface + numfaces)
        if e > faces then pure false
        else
          let h0 ← memI32 mem (p + 36)
          if h0 ≥ nodes then pure false
          else checkHeads mem p clipnodes [1, 2, 3, 4, 5, 6, 7]

/-- The loop over the models (common/bspfile.cc:2011-2035). -/
def checkModels (mem : List Byte) (faces nodes leafs clipnodes : Int) (p : Int) : Nat → Outcome Bool
  | 0 => .ok true
  | n + 1 => do
    let b ← checkModel mem p faces nodes leafs clipnodes
    if b then checkModels mem faces nodes leafs clipnodes (p + 80) n else pure false

/-- `isHexen2` (common/bspfile.cc:1982-2039). The sizes of the models are unsigned, so a negative length counts modulo
2^64. Alignment of the memory is not modelled. -/
def isHexen2 (mem : List Byte) (dir : List (Int × Int)) (v : Ver) : Outcome Bool := do
  let models ← Outcome.readAt dir 14
  let faces ← Outcome.readAt dir 7
  let nodes ← Outcome.readAt dir 5
  let leafs ← Outcome.readAt dir 10
  let clipnodes ← Outcome.readAt dir 9
  if u64.wrap models.2 % 80 ≠ 0 then pure false
  else if u64.wrap models.2 % 64 ≠ 0 then pure true
  else
    let count (l : Int × Int) (a : Arr) : Int := l.2.tdiv (sizeOf v.family v.hexen2 a)
    checkModels mem (count faces .faces) (count nodes .nodes) (count leafs .leafs) (count clipnodes .clipnodes) models.1
      (i32.wrap (u64.wrap models.2 / 80)).toNat

/-! ### Loading -/

/-- The version and the directory (common/bspfile.cc:2220-2259). When the header could not be read its fields are
undefined; the model reports this before the version is looked up. -/
def readHeader (file : List Byte) : Outcome (Ver × List (Int × Int) × IStream) := do
  let s := IStream.open file
  let id ← s.scalar i32
  let ident := id.1.getD 0
  let s := id.2.seek 0
  let isQ2 : Bool := ident = 0x50534249 || ident = 0x50534251
  let h ← defined (s.fields (headerTypes isQ2))
  let version : Option Int := if isQ2 then h.1[1]? else none
  let dir := unflat (h.1.drop (if isQ2 then 2 else 1))
  let v ← supported ident version
  match v with
  | none => .error
  | some v =>
    if v.game = .quake then
      let b ← isHexen2 file dir v
      if b then
        pure ((match v with | .q1 => .h2 | .bsp2 => .h2bsp2 | .bsp2rmq => .h2bsp2rmq | v => v), dir, h.2)
      else pure (v, dir, h.2)
    else pure (v, dir, h.2)

/-- Reading the lumps by number (common/bspfile.cc:2137-2182). -/
def readLumps : IStream → List LumpKind → List (Int × Int) → Outcome (List LumpData × IStream)
  | s, k :: ks, e :: es => do
    let d ← readLump s k e.1 e.2
    let r ← readLumps d.2 ks es
    pure (d.1 :: r.1, r.2)
  | s, _, _ => .ok ([], s)

/-- The end of the last lump (common/bspfile.cc:2282-2284), as `size_t`. -/
def lumpsEnd : Int → List (Int × Int) → Outcome Int
  | m, [] => .ok m
  | m, e :: es => do
    let x ← int32 (e.1 + e.2)
    lumpsEnd (max m (u64.wrap x)) es

/-- A C string in an array of bytes: undefined when there is no NUL. -/
def cstr (bs : List Byte) : Outcome (List Byte) :=
  if 0 ∈ bs then .ok (bs.takeWhile (· ≠ 0)) else .ub

/-- Reading an array of `n` bytes (include/common/cmdlib.hh:455-460): one after the other. -/
def readChars (s : IStream) : Nat → Outcome (Option (List Byte) × IStream)
  | 0 => .ok (some [], s)
  | n + 1 => do
    let r ← s.read 1
    let q ← readChars r.2 n
    pure (match r.1, q.1 with
      | some b, some bs => some (b ++ bs)
      | _, _ => none, q.2)

/-- The loop over the BSPX directory (common/bspfile.cc:2300-2315). -/
def readBspxLumps (file : List Byte) : IStream → Nat → Bspx → Outcome Bspx
  | _, 0, m => .ok m
  | s, n + 1, m => do
    let name ← readChars s 24
    let nums ← name.2.fields [u32, u32]
    match name.1, nums.1 with
    | some name, some [ofs, len] =>
      if ofs > file.length ∨ u32.wrap (ofs + len) > file.length then pure m
      else if ofs + len ≤ file.length then do
        let nm ← cstr name
        readBspxLumps file nums.2 n (assign m nm ((file.drop ofs.toNat).take len.toNat))
      else .ub
    | _, _ => pure m

/-- Detecting and reading the BSPX lumps (common/bspfile.cc:2278-2316). -/
def readBspx (file : List Byte) (s : IStream) (dir : List (Int × Int)) : Outcome Bspx := do
  let e ← lumpsEnd 0 dir
  let ofs := u64.wrap ((e + 3) / 4 * 4)
  if u64.wrap (ofs + 8) ≤ file.length then
    let id ← readChars (s.seek (i64.wrap ofs)) 4
    let num ← id.2.scalar u32
    match id.1, num.1 with
    | some id, some n => if id = bspxId then readBspxLumps file num.2 n.toNat [] else pure []
    | _, _ => pure []
  else pure []

/-- `LoadBSPFile` (common/bspfile.cc:2199-2317), on the contents of the file, into an empty `bspdata_t`. -/
def loadBsp (file : List Byte) : Outcome (Ver × FileBsp) := do
  let h ← readHeader file
  let r ← readLumps h.2.2 h.1.lumps h.2.1
  let x ← readBspx file r.2 h.2.1
  pure (h.1, ⟨r.1, x⟩)

end Verif.BspFile
