import Mathlib.Algebra.Order.Field.Rat
import Mathlib.Data.List.Sort
import Verif.Common.Outcome

/-!
Model of the part of `light` that collects the finished lightmaps of all faces into the
lightmap data of the BSP, the .lit and the .lux file: light/write.cc:109-119, 676-1092,
and the reset of the fields of the faces in light/light.cc:604-638.

The two loops over the faces run in parallel (`logging::parallel_for`).  Every face is a task
with a fixed list of actions (reservations of space in the first loop, stores of bytes in the
second one), and an execution is any interleaving of these lists.

Simplifications: the option `-litonly` is modelled apart from this, in `Light.LitOnly`; the bytes of a single lightmap
(`WriteSingleLightmap`) are part of the input (they are modelled in `Light.Image`); sizes are
natural numbers, so that `numsamples() * num_styles` and the sum of the sizes do not wrap;
brightness is a rational number instead of a float; warnings are left out.
-/

namespace Verif.Light

/-- The bytes that are written for one lightmap: to the greyscale data, to the coloured data
and to the data with the directions of light.  light/write.cc:372-461. -/
structure Image where
  grey : List UInt8
  rgb : List UInt8
  dir : List UInt8
  deriving DecidableEq, Repr

/-- `lightmap_t` (`include/light/light.hh`) as the writer sees it: the number of the style,
the average and the maximum of the brightness of its samples, and what is written for it in
the size of the face (`img`), what `WriteSingleLightmap` writes for it in the standard size
(`vimg`), and what `WriteSingleLightmap_FromDecoupled` writes for it (`dimg`). -/
structure Lightmap where
  style : Nat
  avg : ℚ
  max : ℚ
  img : Image
  vimg : Image
  dimg : Image
  deriving DecidableEq, Repr

/-- `lightsurf_t` (`include/light/light.hh`) as the writer sees it: the lightmaps by style,
the one that `Lightmap_ForStyle` (light/ltface.cc:763-783) hands out for style 0 when none
is to be saved, and the numbers of samples of one lightmap in the size of the face and in the
standard size. -/
structure Surf where
  lightmaps : List Lightmap
  blank : Lightmap
  size : Nat
  vsize : Nat
  deriving DecidableEq, Repr

/-- The fields of a face in the BSP file: `mface_t::lightofs` and `mface_t::styles`. -/
structure FaceRec where
  lightofs : Int
  styles : List Nat
  deriving DecidableEq, Repr

/-- One face before the lightmaps are saved: its surface (`none` for a face without samples),
whether the scale from the lump LMSHIFT is the one of its model
(`faces_sup[i].lmscale == face_modelinfo->lightmapscale`), and the fields that the face has
in the BSP file that was read. -/
structure Face where
  surf : Option Surf
  scaleEq : Bool
  old : FaceRec
  deriving DecidableEq, Repr

/-- The options: whether `facesup_decoupled_global` and `faces_sup` are non-empty, `-novanilla`,
whether the game has coloured lightmaps, `write_litfile`, `write_luxfile`, whether the game is
Quake II, and `-facestyles`. -/
structure Cfg where
  decoupled : Bool
  sup : Bool
  novanilla : Bool
  rgb : Bool
  lit : Bool
  lux : Bool
  q2 : Bool
  facestyles : Int
  deriving DecidableEq, Repr

/-- `MAXLIGHTMAPS` (`include/common/bspfile.hh`). -/
def MAXLIGHTMAPS : Nat := 4
/-- `MAXLIGHTMAPSSUP` (include/light/write.hh:58). -/
def MAXLIGHTMAPSSUP : Nat := 16
/-- `INVALID_LIGHTSTYLE` (include/light/write.hh:59). -/
def INVALID_LIGHTSTYLE : Nat := 0xffff
/-- `INVALID_LIGHTSTYLE_OLD` (`include/common/bspfile.hh`). -/
def INVALID_LIGHTSTYLE_OLD : Nat := 0xff
/-- `std::numeric_limits<int>::max()`. -/
def INT_MAX : Nat := 2147483647

/-- `align_value<4>` (include/common/mathlib.hh:35-44). -/
def align4 (n : Nat) : Nat :=
  if n % 4 ≠ 0 then n + (4 - n % 4) else n

/-- The four cases of `SaveLightmapSurfaces` (light/write.cc:1006-1021, 1052-1073). -/
inductive Mode where
  | decoupled
  | plain
  | sup
  | both
  deriving DecidableEq, Repr

/-- light/write.cc:1006-1019. -/
def mode (c : Cfg) (f : Face) : Mode :=
  if c.decoupled then .decoupled
  else if !c.sup then .plain
  else if c.novanilla || f.scaleEq then .sup
  else .both

/-- `maxfstyles`, light/write.cc:693.  A negative number of styles becomes a large unsigned
number. -/
def maxStyles (c : Cfg) (sup : Bool) : Nat :=
  let cap := if sup then MAXLIGHTMAPSSUP else MAXLIGHTMAPS
  if c.facestyles < 0 then cap else min c.facestyles.toNat cap

/-- Whether a lightmap is put on the list of lightmaps to save, light/write.cc:699-731. -/
def wanted (c : Cfg) (sup : Bool) (l : Lightmap) : Bool :=
  let maxstyle := if sup then INVALID_LIGHTSTYLE else INVALID_LIGHTSTYLE_OLD
  if l.style = INVALID_LIGHTSTYLE then false
  else if l.style > maxstyle || (sup && decide (l.style > INVALID_LIGHTSTYLE_OLD)) then false
  else if !c.q2 && decide (l.max < 1) then false
  else true

/-- `sortable`, light/write.cc:697-744. -/
def sortable (c : Cfg) (sup : Bool) (s : Surf) : List Lightmap :=
  let l := s.lightmaps.filter (wanted c sup)
  if c.q2 && l.isEmpty then [{ s.blank with style := 0, avg := 0 }] else l

/-- The order of `std::pair<float, const lightmap_t *>`: by average brightness, and by address
for equal brightness.  The addresses ascend in the vector of lightmaps. -/
def pairLe (a b : Lightmap × Nat) : Bool :=
  decide (a.1.avg < b.1.avg) || (decide (a.1.avg = b.1.avg) && decide (a.2 ≤ b.2))

/-- `std::sort` followed by `std::reverse`, light/write.cc:746-748.  No two elements are equal
in this order, so that the result does not depend on the algorithm. -/
def byBrightness (l : List Lightmap) : List Lightmap :=
  ((l.zipIdx.insertionSort (fun a b => pairLe a b = true)).reverse).map Prod.fst

/-- `id.sorted`, the lightmaps of a face that are saved: light/write.cc:686-775. -/
def kept (c : Cfg) (sup : Bool) (s : Surf) : List Lightmap :=
  (byBrightness (sortable c sup s)).take (maxStyles c sup)

/-- The lightmaps that are saved for a face: the call of `CalculateLightmapStyles` gets the
supplementary record only in one of the cases, light/write.cc:1006-1021. -/
def faceKept (c : Cfg) (f : Face) (s : Surf) : List Lightmap :=
  kept c (decide (mode c f = .sup)) s

/-- Which of the two offsets of `lightmap_intermediate_data_t` a reservation is for. -/
inductive Slot where
  | vanilla
  | main
  deriving DecidableEq, Repr

/-- The reservations of space that one face makes, light/write.cc:992-1026. -/
def requests (c : Cfg) (f : Face) : List (Slot × Nat) :=
  match f.surf with
  | none => []
  | some s =>
    let n := (faceKept c f s).length
    (match mode c f with
      | .decoupled => if c.novanilla then [] else [(.vanilla, s.vsize * n)]
      | .plain => []
      | .sup => []
      | .both => [(.vanilla, s.vsize * n)]) ++
    (if n ≠ 0 then [(.main, s.size * n)] else [])

/-- The calls of `GetFileSpace` (light/write.cc:109-119) in the order of their atomic
additions: the offset that each of them gets, and the final value of the counter. -/
def grant : Nat → List (Nat × Slot × Nat) → Outcome (List (Nat × Slot × Nat) × Nat)
  | off, [] => .ok ([], off)
  | off, (i, sl, n) :: t =>
    if off > INT_MAX then .error
    else do
      let (g, total) ← grant (off + align4 n) t
      pure ((i, sl, off) :: g, total)

/-- The offset that was stored for a face; -1 if there was no reservation
(`lightmap_intermediate_data_t`, light/write.cc:676-680). -/
def offsetOf (g : List (Nat × Slot × Nat)) (i : Nat) (sl : Slot) : Int :=
  match g.find? (fun e => decide (e.1 = i) && decide (e.2.1 = sl)) with
  | some e => e.2.2
  | none => -1

/-- The three arrays of bytes: `filebase`, `lit_filebase`, `lux_filebase`. -/
inductive Buf where
  | grey
  | lit
  | lux
  deriving DecidableEq, Repr

/-- The sizes of the three arrays, light/write.cc:1029-1040. -/
def bufSize (c : Cfg) (total : Nat) : Buf → Nat
  | .grey => if !c.rgb then total else 0
  | .lit => if c.rgb || c.lit then total * 3 else 0
  | .lux => if c.lux then total * 3 else 0

/-- One store of a byte. -/
structure Store where
  buf : Buf
  addr : Nat
  val : UInt8
  deriving DecidableEq, Repr

/-- The stores for the lightmaps of one face into one array: the pointer is advanced by `step`
after each lightmap, light/write.cc:884-898. -/
def strip (b : Buf) (step : Nat) : Nat → List (List UInt8) → List Store
  | _, [] => []
  | start, d :: ds =>
    d.zipIdx.map (fun e => ⟨b, start + e.2, e.1⟩) ++ strip b step (start + step) ds

/-- The stores of the lightmaps `imgs`, each with `size` samples, at the offset `ofs` into the
arrays that are not empty, light/write.cc:831-845, 884-898. -/
def stores (c : Cfg) (total : Nat) (ofs size : Nat) (imgs : List Image) : List Store :=
  (if bufSize c total .grey ≠ 0 then strip .grey size ofs (imgs.map Image.grey) else []) ++
  (if bufSize c total .lit ≠ 0 then strip .lit (size * 3) (ofs * 3) (imgs.map Image.rgb) else []) ++
  (if bufSize c total .lux ≠ 0 then strip .lux (size * 3) (ofs * 3) (imgs.map Image.dir) else [])

/-- The factor 3 of the offset is applied in `int` arithmetic, light/write.cc:838, 842. -/
def tripled (c : Cfg) (total : Nat) (ofs : Nat) : Outcome Unit :=
  if (bufSize c total .lit ≠ 0 ∨ bufSize c total .lux ≠ 0) ∧ ofs * 3 > INT_MAX then .ub
  else .ok ()

/-- The offset that is written into the face, light/write.cc:849-854. -/
def recorded (c : Cfg) (ofs : Nat) : Int := if c.rgb then ofs * 3 else ofs

/-- The three assertions, light/write.cc:872-882. -/
def fits (c : Cfg) (total : Nat) (ofs size n : Nat) : Bool :=
  (decide (bufSize c total .grey = 0) || decide (ofs + size * n ≤ bufSize c total .grey)) &&
  (decide (bufSize c total .lit = 0) || decide (ofs * 3 + size * 3 * n ≤ bufSize c total .lit)) &&
  (decide (bufSize c total .lux = 0) || decide (ofs * 3 + size * 3 * n ≤ bufSize c total .lux))

/-- A store outside of its array is undefined behaviour. -/
def checked (c : Cfg) (total : Nat) (l : List Store) : Outcome (List Store) :=
  if l.all (fun s => decide (s.addr < bufSize c total s.buf)) then .ok l else .ub

/-- An array of `n` style numbers that begins with the given ones, light/write.cc:807-826. -/
def styleArray (n fill : Nat) (l : List Nat) : List Nat :=
  l.take n ++ List.replicate (n - l.length) fill

/-- What is known about a face after the lightmaps are saved: its fields in the BSP file, the
supplementary fields (`facesup_t`), and the offset in the lump DECOUPLED_LM. -/
structure Out where
  face : FaceRec
  sup : FaceRec
  dec : Int
  deriving DecidableEq, Repr

/-- The fields before the lightmaps are saved: `CreateLightmapSurfaces`, `light/light.cc`
613-635.  The elements of `faces_sup` and `facesup_decoupled_global` are zero before that. -/
def initOut (c : Cfg) (f : Face) : Out :=
  if c.sup then
    { face := f.old
      sup := ⟨-1, List.replicate MAXLIGHTMAPSSUP INVALID_LIGHTSTYLE⟩
      dec := 0 }
  else
    { face := ⟨-1, List.replicate MAXLIGHTMAPS INVALID_LIGHTSTYLE_OLD⟩
      sup := ⟨0, List.replicate MAXLIGHTMAPSSUP 0⟩
      dec := if c.decoupled then -1 else 0 }

/-- The lightmap data of one call of `SaveLightmapSurface` (light/write.cc:788-898): the
offset that is recorded and the stores.  `size` is `output_extents.numsamples()`. -/
def saveData (c : Cfg) (total : Nat) (ofs : Int) (size : Nat) (imgs : List Image) :
    Outcome (Int × List Store) :=
  if ofs < 0 then .error
  else do
    tripled c total ofs.toNat
    if fits c total ofs.toNat size imgs.length then
      let st ← checked c total (stores c total ofs.toNat size imgs)
      pure (recorded c ofs.toNat, st)
    else .error

/-- The lightmap in the standard size that accompanies a decoupled one, `light/write.cc`
900-942.  There is no assertion about the size here. -/
def saveVanilla (c : Cfg) (total : Nat) (ofs : Int) (size : Nat) (imgs : List Image) :
    Outcome (Int × List Store) :=
  if ofs < 0 then .error
  else do
    tripled c total ofs.toNat
    let st ← checked c total (stores c total ofs.toNat size imgs)
    pure (recorded c ofs.toNat, st)

/-- `styles` of `mface_t` and `facesup_t`, light/write.cc:807-826. -/
def faceStyles (l : List Lightmap) : List Nat :=
  styleArray MAXLIGHTMAPS INVALID_LIGHTSTYLE_OLD (l.map Lightmap.style)

def supStyles (l : List Lightmap) : List Nat :=
  styleArray MAXLIGHTMAPSSUP INVALID_LIGHTSTYLE (l.map Lightmap.style)

/-- The copy of the supplementary styles into the face, light/write.cc:1065-1068. -/
def copyStyles (l : List Nat) : List Nat :=
  (l.take MAXLIGHTMAPS).map
    fun x => if x = INVALID_LIGHTSTYLE then INVALID_LIGHTSTYLE_OLD else x

/-- The second loop for one face, light/write.cc:1044-1074. -/
def faceProg (c : Cfg) (total : Nat) (g : List (Nat × Slot × Nat)) (i : Nat) (f : Face) :
    Outcome (List Store × Out) :=
  let o := initOut c f
  match f.surf with
  | none => .ok ([], o)
  | some s =>
    let l := faceKept c f s
    let main := offsetOf g i .main
    let van := offsetOf g i .vanilla
    match mode c f with
    | .decoupled =>
      if l.isEmpty then .ok ([], o)
      else do
        let (ofs, st) ← saveData c total main s.size (l.map Lightmap.img)
        if c.novanilla then
          pure (st, { o with face := ⟨-1, faceStyles l⟩, dec := ofs })
        else do
          let (vofs, vst) ← saveVanilla c total van s.vsize (l.map Lightmap.dimg)
          pure (st ++ vst, { o with face := ⟨vofs, faceStyles l⟩, dec := ofs })
    | .plain =>
      if l.isEmpty then .ok ([], o)
      else do
        let (ofs, st) ← saveData c total main s.size (l.map Lightmap.img)
        pure (st, { o with face := ⟨ofs, faceStyles l⟩ })
    | .sup =>
      let o := { o with face.lightofs := if f.scaleEq then o.sup.lightofs else -1 }
      if l.isEmpty then
        .ok ([], { o with face.styles := copyStyles o.sup.styles })
      else do
        let (ofs, st) ← saveData c total main s.size (l.map Lightmap.img)
        let sup : FaceRec := ⟨ofs, supStyles l⟩
        pure (st, { o with sup := sup, face.styles := copyStyles sup.styles })
    | .both =>
      if l.isEmpty then .ok ([], o)
      else do
        let (ofs, st) ← saveData c total main s.vsize (l.map Lightmap.vimg)
        let (ofs', st') ← saveData c total main s.size (l.map Lightmap.img)
        pure (st ++ st', { o with face := ⟨ofs, faceStyles l⟩, sup := ⟨ofs', supStyles l⟩ })

/-- The second loop for all faces, from face number `i` on. -/
def progs (c : Cfg) (total : Nat) (g : List (Nat × Slot × Nat)) :
    Nat → List Face → Outcome (List (List Store × Out))
  | _, [] => .ok []
  | i, f :: fs => do
    let p ← faceProg c total g i f
    let ps ← progs c total g (i + 1) fs
    pure (p :: ps)

/-- The contents of the three arrays. -/
abbrev Mem := Buf → Nat → UInt8

/-- Stores in the order in which they happen. -/
def runStores (m : Mem) (l : List Store) : Mem :=
  l.foldl (fun m s => fun b a => if b = s.buf ∧ a = s.addr then s.val else m b a) m

/-- A list of events, each with the number of its task, is an interleaving of the programs of
the tasks if the events of every task are its program, in its order. -/
def Interleaves {α : Type} (ps : List (List α)) (t : List (Nat × α)) : Prop :=
  ∀ i, (t.filter (fun e => decide (e.1 = i))).map Prod.snd = ps.getD i []

/-- What is left at the end: the number of bytes of greyscale data that were reserved, the
arrays and the fields of the faces. -/
structure Result where
  total : Nat
  mem : Mem
  outs : List Out

/-- The assertion at the end of `CalculateLightmapStyles`, light/write.cc:781-783. -/
def stylesOk (c : Cfg) (f : Face) : Bool :=
  match f.surf with
  | none => true
  | some s => !(c.q2 && (faceKept c f s).isEmpty)

/-- The executions of `SaveLightmapSurfaces` (light/write.cc:945-1075) and what they end
with.  `t1` and `t2` are the orders of the events of the two parallel loops. -/
inductive Run (c : Cfg) (fs : List Face) : Outcome Result → Prop
  | noStyles : fs.all (stylesOk c) = false → Run c fs .error
  | full (t1 : List (Nat × Slot × Nat)) :
      fs.all (stylesOk c) = true → Interleaves (fs.map (requests c)) t1 → grant 0 t1 = .error →
      Run c fs .error
  | failed (t1 : List (Nat × Slot × Nat)) (g : List (Nat × Slot × Nat)) (total : Nat) :
      fs.all (stylesOk c) = true → Interleaves (fs.map (requests c)) t1 →
      grant 0 t1 = .ok (g, total) → progs c total g 0 fs = .error →
      Run c fs .error
  | undef (t1 : List (Nat × Slot × Nat)) (g : List (Nat × Slot × Nat)) (total : Nat) :
      fs.all (stylesOk c) = true → Interleaves (fs.map (requests c)) t1 →
      grant 0 t1 = .ok (g, total) → progs c total g 0 fs = .ub →
      Run c fs .ub
  | done (t1 : List (Nat × Slot × Nat)) (g : List (Nat × Slot × Nat)) (total : Nat)
      (ps : List (List Store × Out)) (t2 : List (Nat × Store)) :
      fs.all (stylesOk c) = true → Interleaves (fs.map (requests c)) t1 →
      grant 0 t1 = .ok (g, total) → progs c total g 0 fs = .ok ps →
      Interleaves (ps.map Prod.fst) t2 →
      Run c fs (.ok ⟨total, runStores (fun _ _ => 0) (t2.map Prod.snd), ps.map Prod.snd⟩)

end Verif.Light
