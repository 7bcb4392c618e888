import Verif.Tree.Model
import Verif.Emit.Texinfo

/-!
Model of the list of brushes in a file of Quake II: `ExportBrushList` (qbsp/qbsp.cc:803-879), for all trees of a map one after the other.

Simplifications: a fragment of a brush in a leaf is the number of its brush of the map; the contents of a fragment are those of its brush
(they are copied: qbsp/brush.cc:101, qbsp/brushbsp.cc:472). A brush is added to the file when its sides are known, and not before.
The vectors of a texture aligned to a plane are a parameter (`set_texinfo`, modelled in `TexDef`). What is counted is left out.
-/

namespace Verif.LeafBrush

open Contents

/-- What the export reads and writes of `mapbrush_t` (include/qbsp/map.hh), with sides of type `A`. -/
structure MBrush (A : Type) where
  contents : Contents
  sides : List A
  out : Option Nat

/-- What the export reads and writes of a leaf (include/qbsp/qbsp.hh:408-432). -/
structure Leaf where
  contents : Contents
  brushes : List Nat
  first : Nat
  num : Nat
  deriving DecidableEq

inductive Tree where
  | leaf (l : Leaf)
  | node (front back : Tree)

/-- `dbrush_t` (include/common/bspfile_q2.hh). -/
structure DBrush where
  first : Nat
  num : Nat
  contents : Int
  deriving DecidableEq

/-- The brushes of the map, the arrays of the file, and what the export of a side reads and writes. -/
structure St (A D S : Type) where
  mbrushes : List (MBrush A)
  dbrushes : List DBrush
  dsides : List D
  dleafbrushes : List Nat
  rest : S

variable {A D S : Type}

/-- The loop over the sides (qbsp/qbsp.cc:827-854). -/
def exportSides (side : A → S → Outcome (D × S)) : List A → S → Outcome (List D × S)
  | [], s => .ok ([], s)
  | a :: l, s => side a s >>= fun r => exportSides side l r.2 >>= fun q => .ok (r.1 :: q.1, q.2)

/-- `contents_to_native` of `contents_remap_for_export` (qbsp/qbsp.cc:807-808, 819-820). -/
def native (c : Contents) (leaf : Bool) : Outcome Int := Q2.toNative (Q2.remapForExport c leaf) >>= fun v => .ok v.toInt

/-- One brush of a leaf (qbsp/qbsp.cc:816-859): its number, and the state. -/
def exportBrush (side : A → S → Outcome (D × S)) (b : Nat) (st : St A D S) : Outcome (Nat × St A D S) :=
  Outcome.readAt st.mbrushes b >>= fun m =>
    match m.out with
    | some n => .ok (n, st)
    | none =>
      native m.contents false >>= fun c => exportSides side m.sides st.rest >>= fun r =>
        .ok (st.dbrushes.length, { st with
          mbrushes := st.mbrushes.set b { m with out := some st.dbrushes.length }
          dbrushes := st.dbrushes ++ [⟨st.dsides.length, r.1.length, c⟩]
          dsides := st.dsides ++ r.1
          rest := r.2 })

/-- The loop over the brushes of a leaf (qbsp/qbsp.cc:814-860). -/
def exportBrushes (side : A → S → Outcome (D × S)) : List Nat → St A D S → Outcome (St A D S)
  | [], st => .ok st
  | b :: l, st => exportBrush side b st >>= fun r => exportBrushes side l { r.2 with dleafbrushes := r.2.dleafbrushes ++ [r.1] }

/-- A leaf (qbsp/qbsp.cc:805-865). -/
def exportLeaf (side : A → S → Outcome (D × S)) (l : Leaf) (st : St A D S) : Outcome (Leaf × St A D S) :=
  native l.contents true >>= fun c =>
    if c = 0 then .ok (l, st)
    else if l.brushes = [] then .ok (l, st)
    else exportBrushes side l.brushes st >>= fun st' => .ok ({ l with first := st.dleafbrushes.length, num := l.brushes.length }, st')

/-- `ExportBrushList_r` (qbsp/qbsp.cc:803-870). -/
def exportTree (side : A → S → Outcome (D × S)) : Tree → St A D S → Outcome (Tree × St A D S)
  | .leaf l, st => exportLeaf side l st >>= fun r => .ok (.leaf r.1, r.2)
  | .node f b, st => exportTree side f st >>= fun r => exportTree side b r.2 >>= fun q => .ok (.node r.1 q.1, q.2)

/-- All models, one after the other (qbsp/qbsp.cc:1268-1274): before the list of its brushes the faces of a model are exported, and with
them planes and texinfos; each tree is given with what that does to `rest`. -/
def exportTrees (side : A → S → Outcome (D × S)) : List ((S → Outcome S) × Tree) → St A D S → Outcome (List Tree × St A D S)
  | [], st => .ok ([], st)
  | t :: l, st => t.1 st.rest >>= fun s => exportTree side t.2 { st with rest := s } >>= fun r =>
      exportTrees side l r.2 >>= fun q => .ok (r.1 :: q.1, q.2)

/-! ### The export of a side -/

variable {K V F : Type} [Field K] [LinearOrder K] [DecidableEq V] [DecidableEq F]

/-- A side of a brush of the map: its plane and its texinfo. -/
structure Side where
  plane : Nat
  tex : Nat
  deriving DecidableEq

/-- The planes and texinfos, of the map and of the file. -/
structure Rest (K V F : Type) where
  planes : Verif.Tree.St K
  tex : Emit.XSt V F

/-- What does not change: the rounding of numbers to `float`, the options, `map.mtexinfo_lookup` and the vectors aligned to each plane. -/
structure Env (K V F : Type) where
  rnd : K → K
  opts : Emit.XOpts F
  lookup : List (Emit.TexKey V F × Nat)
  aligned : Nat → V

/-- The texinfo that is used for a side (qbsp/qbsp.cc:829-848): if it has no number in the file yet, one of the same kind that is aligned
to the plane, if the map has one. -/
def chooseTex (e : Env K V F) (a : Side) (t : Emit.TexInfo V F) : Nat :=
  match t.outputnum with
  | some _ => a.tex
  | none =>
    match Emit.findKey e.lookup { t.key with vecs := e.aligned a.plane } with
    | some n => n
    | none => a.tex

/-- One side (qbsp/qbsp.cc:829-851): the numbers of its plane and texinfo in the file; no texinfo is -1. The bound on the depth is never
reached (`Emit.exportTexinfo_ends`). -/
def exportSide (e : Env K V F) (a : Side) (s : Rest K V F) : Outcome ((Nat × Option Nat) × Rest K V F) :=
  Outcome.readAt s.tex.infos a.tex >>= fun t =>
    Verif.Tree.exportPlane e.rnd a.plane s.planes >>= fun p =>
      match Emit.exportTexinfo e.opts (s.tex.infos.length + 1) (chooseTex e a t) s.tex with
      | none => .error
      | some r => r >>= fun x => .ok ((p.1, x.1), ⟨p.2, x.2⟩)

end Verif.LeafBrush
