import Verif.LeafBrush.Model
import Mathlib.Data.List.Forall2
import Verif.Emit.TexExportProps
import Verif.Tree.ClipProps

/-! What the brushes in the file and the lists of the leafs are. -/

namespace Verif.LeafBrush.Spec

open Contents

variable {A D S : Type}

/-- A part of an array. -/
def slice {α : Type} (l : List α) (first num : Nat) : List α := (l.drop first).take num

/-- Brush `n` of the file is brush `b` of the map: it has its contents, and its sides are those of the brush, in order, where `R` is what a
side of the file has to do with one of the map. -/
def IsBrush (R : A → D → Prop) (st : St A D S) (b n : Nat) : Prop :=
  ∃ m d, st.mbrushes[b]? = some m ∧ m.out = some n ∧ st.dbrushes[n]? = some d ∧ native m.contents false = .ok d.contents ∧
    d.first + d.num ≤ st.dsides.length ∧ List.Forall₂ R m.sides (slice st.dsides d.first d.num)

/-- The leafs of a tree. -/
def leafs : Tree → List Leaf
  | .leaf l => [l]
  | .node f b => leafs f ++ leafs b

/-- What becomes of a leaf: if it is not empty in the file and has brushes, its part of the list names these brushes, in order; otherwise
nothing is changed. -/
def LeafOk (R : A → D → Prop) (st : St A D S) (l l' : Leaf) : Prop :=
  ∃ c, native l.contents true = .ok c ∧
    if c ≠ 0 ∧ l.brushes ≠ [] then
      l'.contents = l.contents ∧ l'.brushes = l.brushes ∧ l'.num = l.brushes.length ∧ l'.first + l'.num ≤ st.dleafbrushes.length ∧
        List.Forall₂ (IsBrush R st) l.brushes (slice st.dleafbrushes l'.first l'.num)
    else l' = l

/-- The brushes of the file: each is a brush of the map, no brush of the map is there twice, and the sides lie one after the other without
gaps. -/
structure Brushes (R : A → D → Prop) (st : St A D S) : Prop where
  shown : ∀ (b : Nat) m n, st.mbrushes[b]? = some m → m.out = some n → IsBrush R st b n
  onto : ∀ n < st.dbrushes.length, ∃ b, IsBrush R st b n
  once : ∀ b b' n, IsBrush R st b n → IsBrush R st b' n → b = b'
  firsts : ∀ (i : Nat) d, st.dbrushes[i]? = some d → d.first = ((st.dbrushes.take i).map (·.num)).sum
  total : st.dsides.length = (st.dbrushes.map (·.num)).sum

variable {K V F : Type} [Field K] [LinearOrder K] [DecidableEq V] [DecidableEq F]

/-- A side of the file shows a side of the map: its plane is the record of that plane, and its texinfo is the record of a texinfo of the
map that is equal to that of the side but for the vectors; there is no texinfo if it is one of those that are not written. -/
def SideOk (e : Env K V F) (s : Rest K V F) (a : Side) (d : Nat × Option Nat) : Prop :=
  (∃ p, s.planes.planes[a.plane]? = some p ∧ s.planes.dplanes[d.1]? = some (Tree.toDPlane e.rnd p)) ∧
  ∃ t k, s.tex.infos[a.tex]? = some t ∧ (k.flags = t.key.flags ∧ k.miptex = t.key.miptex ∧ k.value = t.key.value) ∧
    (k.vecs = t.key.vecs ∨ k.vecs = e.aligned a.plane) ∧
    match d.2 with
    | none => e.opts.skip t.key.flags = true
    | some i => ∃ x, s.tex.out[i]? = some x ∧ Emit.Spec.Record e.opts k x

/-- The planes and texinfos are in order: those with a number in the file are there, and the look-up leads to texinfos that are what the
key says. -/
structure RestOk (e : Env K V F) (s : Rest K V F) : Prop where
  planes : Tree.Spec.Exported e.rnd s.planes
  tex : Emit.Spec.Numbered e.opts s.tex
  lookup : ∀ k n, (k, n) ∈ e.lookup → ∃ t, s.tex.infos[n]? = some t ∧ Emit.Spec.SameTex t.key k

/-- What the export of faces, planes and texinfos keeps: planes and texinfos of the map stay what they are, and the file grows. -/
def RestLe (e : Env K V F) (s s' : Rest K V F) : Prop :=
  s'.planes.planes.map (Tree.toDPlane e.rnd) = s.planes.planes.map (Tree.toDPlane e.rnd) ∧ s.planes.dplanes <+: s'.planes.dplanes ∧
    Emit.Grows s.tex s'.tex

end Verif.LeafBrush.Spec
