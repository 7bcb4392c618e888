import Verif.BspFile.Lump

/-!
Model of the data in BSPX lumps (common/bspxfile.cc), of the functions that read them (common/bsputils.cc:777-809) and of
.lit files (light/write.cc:51-85, common/bsputils.cc:1124-1149). Floating-point fields hold bit patterns.
-/

namespace Verif.BspFile

open Verif Verif.Stream

/-! ### BRUSHLIST -/

/-- `bspxbrushes_perbrush` (include/common/bspxfile.hh:58-68): 6 floats, the contents, and planes of 4 floats. -/
structure XBrush where
  bounds : List Int
  contents : Int
  faces : List (List Int)
  deriving DecidableEq

/-- `bspxbrushes_permodel` (include/common/bspxfile.hh:70-81). -/
structure XModel where
  ver : Int
  modelnum : Int
  brushes : List XBrush
  numfaces : Int
  deriving DecidableEq

/-- The fields of an `aabb3f`. -/
def boundsTypes : List Scalar := [f32, f32, f32, f32, f32, f32]

/-- The fields of a `qplane3f`. -/
def xplaneTypes : List Scalar := [f32, f32, f32, f32]

/-- `bspxbrushes_perbrush::stream_write` (common/bspxfile.cc:54-62). -/
def xbrushBytes (b : XBrush) : List Byte :=
  encodeFields boundsTypes b.bounds ++ i16.encode b.contents ++ u16.encode (u16.wrap b.faces.length) ++
    b.faces.flatMap (encodeFields xplaneTypes)

/-- The number of faces (common/bspxfile.cc:86-89). -/
def countFaces : Int → List XBrush → Outcome Int
  | n, [] => .ok n
  | n, b :: bs => do
    let n' ← int32 (n + i32.wrap b.faces.length)
    countFaces n' bs

/-- `bspxbrushes_permodel::stream_write` (common/bspxfile.cc:80-96). -/
def xmodelBytes (m : XModel) : Outcome (List Byte) := do
  let faces ← countFaces 0 m.brushes
  pure (i32.encode m.ver ++ i32.encode m.modelnum ++ i32.encode (i32.wrap m.brushes.length) ++ i32.encode faces ++
    m.brushes.flatMap xbrushBytes)

/-- `bspxbrushes::stream_write` (common/bspxfile.cc:122-127). -/
def xmodelsBytes : List XModel → Outcome (List Byte)
  | [] => .ok []
  | m :: ms => do
    let a ← xmodelBytes m
    let b ← xmodelsBytes ms
    pure (a ++ b)

/-- `bspxbrushes_perbrush::stream_read` (common/bspxfile.cc:64-76). `none`: some field was not stored; then the stream
has failed. -/
def readXBrush (s : IStream) : Outcome (Option XBrush × IStream) := do
  let b ← s.fields boundsTypes
  let c ← b.2.scalar i16
  let n ← c.2.scalar u16
  let f ← n.2.records xplaneTypes (n.1.getD 0).toNat
  pure (match b.1, c.1, n.1, f.1 with
    | some b, some c, some _, some f => some ⟨b, c, f⟩
    | _, _, _, _ => none, f.2)

/-- The brushes of a model. -/
def readXBrushes (s : IStream) : Nat → Outcome (Option (List XBrush) × IStream)
  | 0 => .ok (some [], s)
  | n + 1 => do
    let b ← readXBrush s
    let bs ← readXBrushes b.2 n
    pure (match b.1, bs.1 with
      | some b, some bs => some (b :: bs)
      | _, _ => none, bs.2)

/-- `bspxbrushes_permodel::stream_read` (common/bspxfile.cc:98-118). The number of brushes is undefined when it was not
stored; a negative number is too large for `resize`. -/
def readXModel (s : IStream) : Outcome (Option XModel × IStream) := do
  let v ← s.scalar i32
  match v.1 with
  | none => pure (none, v.2)
  | some ver =>
    let m ← v.2.scalar i32
    let n ← defined (m.2.scalar i32)
    let f ← n.2.scalar i32
    if n.1 < 0 then .error
    else
      let bs ← readXBrushes f.2 n.1.toNat
      pure (match m.1, f.1, bs.1 with
        | some m, some f, some bs => some ⟨ver, m, bs, f⟩
        | _, _, _ => none, bs.2)

/-- `bspxbrushes::stream_read` (common/bspxfile.cc:129-143). The loop ends because every model takes at least 16 bytes;
`fuel` is more than the number of bytes. -/
def readXModels : Nat → IStream → Outcome (List XModel)
  | 0, _ => .ok []
  | fuel + 1, s => do
    let m ← readXModel s
    match m.1 with
    | some x =>
      if m.2.failed then pure []
      else
        let r ← readXModels fuel m.2
        pure (x :: r)
    | none => pure []

/-- Reading a BRUSHLIST lump (common/bspinfo.cc:56-60). -/
def loadBrushList (lump : List Byte) : Outcome (List XModel) := readXModels (lump.length + 1) (IStream.open lump)

/-! ### FACENORMALS -/

/-- `bspxfacenormals` (include/common/bspxfile.hh:91-131): normals of 3 floats, and for each face a list of vertices with
three indices. -/
structure FaceNormals where
  normals : List (List Int)
  perFace : List (List (List Int))
  deriving DecidableEq

/-- `bspxfacenormals::stream_write` (common/bspxfile.cc:177-190). -/
def faceNormalsBytes (x : FaceNormals) : List Byte :=
  u32.encode (u32.wrap x.normals.length) ++ x.normals.flatMap (encodeFields [f32, f32, f32]) ++
    x.perFace.flatMap fun vs => vs.flatMap (encodeFields [u32, u32, u32])

/-- The faces (common/bspxfile.cc:207-211, 166-173); `edges`: `numedges` of the faces; nothing is read for a negative
number. -/
def readPerFace (s : IStream) : List Int → Outcome (List (List (List Int)) × IStream)
  | [] => .ok ([], s)
  | n :: ns => do
    let vs ← defined (s.records [u32, u32, u32] n.toNat)
    let r ← readPerFace vs.2 ns
    pure (vs.1 :: r.1, r.2)

/-- `bspxfacenormals::stream_read` (common/bspxfile.cc:192-212), as called by `BSPX_FaceNormals`
(common/bsputils.cc:793-806). Values that were not stored are undefined. -/
def loadFaceNormals (lump : List Byte) (edges : List Int) : Outcome FaceNormals := do
  let n ← defined ((IStream.open lump).scalar u32)
  let normals ← defined (n.2.records [f32, f32, f32] n.1.toNat)
  let r ← readPerFace normals.2 edges
  pure ⟨normals.1, r.1⟩

/-! ### DECOUPLED_LM -/

/-- The fields of `bspx_decoupled_lm_perface` (include/common/bspxfile.hh:134-149, common/bspxfile.cc:216-224). -/
def decoupledTypes : List Scalar := [u16, u16, i32] ++ List.replicate 8 f32

/-- The lump: one record for each face. -/
def decoupledBytes (rs : List (List Int)) : List Byte := rs.flatMap (encodeFields decoupledTypes)

/-- `BSPX_DecoupledLM` (common/bsputils.cc:779-791); the size of the structure is 40. -/
def loadDecoupled (lump : List Byte) (face : Nat) : Outcome (List Int) := do
  let r ← defined (((IStream.open lump).seek (face * 40 : Nat)).fields decoupledTypes)
  pure r.1

/-! ### .lit files -/

/-- "QLIT". -/
def litId : List Byte := [0x51, 0x4c, 0x49, 0x54]

/-- `WriteLitFile` for version 1 (light/write.cc:51-85) on a little-endian machine; `samples`: the size of the light
data. More than `lit` holds is read when it is too short. -/
def writeLit (lit : List Byte) (samples : Nat) : Outcome (List Byte) :=
  if lit.length < samples * 3 then .ub else .ok (litId ++ i32.encode 1 ++ lit.take (samples * 3))

/-- The loop of `LoadLitFile` (common/bsputils.cc:1141-1146) on the rest of the file: the state of the stream is tested
before a byte is read, so a byte is also added when there is none left. `junk`: the value of the variable that was not
stored. -/
def litLoop (junk : Byte) : List Byte → List Byte
  | [] => [junk]
  | b :: bs => b :: litLoop junk bs

/-- `LoadLitFile` (common/bsputils.cc:1124-1149). With less than 8 bytes undefined values are compared. The value of `b`
when a read fails is that of the previous iteration or arbitrary; `junk` stands for it. -/
def loadLit (junk : Byte) (file : List Byte) : Outcome (List Byte) :=
  if file.length < 4 then .ub
  else if file.take 4 ≠ litId then .error
  else if file.length < 8 then .ub
  else if i32.decode ((file.drop 4).take 4) ≠ 1 then .error
  else .ok (litLoop junk (file.drop 8))

end Verif.BspFile
