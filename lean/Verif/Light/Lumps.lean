import Verif.Light.Model

/-!
Model of the BSPX lumps that `light` writes for the supplementary data of the faces
(light/light.cc:843-923), and of the version 2 of the .lit file (light/write.cc:51-84 and
1079-1082).
-/

namespace Verif.Light

/-- The styles of a face before the first unused entry, light/light.cc:852-861. -/
def usedStyles (o : Out) : List Nat :=
  (o.sup.styles.take MAXLIGHTMAPSSUP).takeWhile (fun x => decide (x ≠ INVALID_LIGHTSTYLE))

/-- One of the first four styles differs from the one in the face, light/light.cc:856-858. -/
def stylesDiffer (o : Out) : Bool :=
  ((usedStyles o).take MAXLIGHTMAPS).zipIdx.any
    (fun e => decide (o.face.styles.getD e.2 0 ≠ e.1))

/-- `maxstyle`, light/light.cc:859-860. -/
def maxStyle (outs : List Out) : Nat :=
  (outs.flatMap usedStyles).foldl max 0

/-- `stylesperface` before it is limited, light/light.cc:862-863. -/
def stylesPerFace (outs : List Out) : Nat :=
  (outs.map (fun o => (usedStyles o).length)).foldl max 0

/-- The lumps LMSTYLE16, LMSTYLE (one row of numbers for each face) and LMOFFSET. -/
structure Lumps where
  style16 : Option (List (List Nat))
  style8 : Option (List (List Nat))
  offset : Option (List Int)
  deriving DecidableEq, Repr

/-- light/light.cc:843-923, for `faces_sup` that is not empty. -/
def writeLumps (facestyles : Int) (outs : List Out) : Outcome Lumps :=
  let needoffsets := outs.any (fun o => decide (o.face.lightofs ≠ o.sup.lightofs))
  let per : Int := if (stylesPerFace outs : Int) ≥ facestyles then facestyles else stylesPerFace outs
  let needstyles := outs.any stylesDiffer || decide (per > 4)
  let offset := if needoffsets then some (outs.map (fun o => o.sup.lightofs)) else none
  if needstyles then
    if per < 0 then .error
    else if maxStyle outs ≥ INVALID_LIGHTSTYLE_OLD then
      .ok ⟨some (outs.map (fun o => o.sup.styles.take per.toNat)), none, offset⟩
    else
      .ok ⟨none, some (outs.map (fun o => (o.sup.styles.take per.toNat).map
        (fun x => if x = INVALID_LIGHTSTYLE then INVALID_LIGHTSTYLE_OLD else x))), offset⟩
  else .ok ⟨none, none, offset⟩

/-- The numbers of bytes of lightmap data in a .lit file of version 2: `WriteLitFile` takes
`bsp->dlightdata.size() * 3` bytes from both arrays, and at this time (`light/write.cc`
1079-1082) the BSP still has the lightmap data it was loaded with, of `old` bytes. -/
def writeLit2 (c : Cfg) (total old : Nat) : Outcome (Nat × Nat) :=
  if old * 3 > bufSize c total .lit then .ub
  else if old * 3 > bufSize c total .lux then .ub
  else .ok (old * 3, old * 3)

/-! ### Reading, as documented for the lumps (specification) -/

/-- The style numbers in an array that ends with `fill` or with its last element. -/
def readStyles (fill : Nat) (l : List Nat) : List Nat :=
  l.takeWhile (fun x => decide (x ≠ fill))

/-- The styles of face `i` for a program that knows the lumps. -/
def lumpStyles (l : Lumps) (outs : List Out) (i : Nat) : Option (List Nat) :=
  match l.style16 with
  | some rows => rows[i]?.map (readStyles INVALID_LIGHTSTYLE)
  | none =>
    match l.style8 with
    | some rows => rows[i]?.map (readStyles INVALID_LIGHTSTYLE_OLD)
    | none => outs[i]?.map (fun o => readStyles INVALID_LIGHTSTYLE_OLD o.face.styles)

/-- The offset of the lightmaps of face `i` for a program that knows the lumps. -/
def lumpOffset (l : Lumps) (outs : List Out) (i : Nat) : Option Int :=
  match l.offset with
  | some ofs => ofs[i]?
  | none => outs[i]?.map (fun o => o.face.lightofs)

end Verif.Light
