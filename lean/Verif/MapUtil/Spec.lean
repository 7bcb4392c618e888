import Verif.MapUtil.Model
import Verif.MapText.Spec

/-!
What a map must be like so that `maputil` can write it and read it again.
-/

namespace Verif.MapUtil.Spec

open Verif.EntData (Str)
open Verif.MapText (Env)
open Verif.MapText.Spec (Word)

variable {N : Type}

/-- The surface info is complete and fits its types. -/
def InfoOk (i : Int × Option Int × Option Int) : Prop :=
  ∃ f v, i.2 = (some f, some v) ∧ (-2 ^ 31 ≤ i.1 ∧ i.1 < 2 ^ 31) ∧ (-2 ^ 31 ≤ f ∧ f < 2 ^ 31) ∧ (-2 ^ 31 ≤ v ∧ v < 2 ^ 31)

/-- The definition is one of the editors of Quake and Valve, or, if `quark`, of QuArK, and each of its numbers is set. -/
def DefOk (quark : Bool) : Def N → Prop
  | .quaked _ _ _ => True
  | .etp _ _ _ _ => quark = true
  | .valve _ _ r _ => r ≠ none
  | .prim _ _ => False

/-- A face that can be written. -/
structure FaceOk (quark : Bool) (f : Face N) : Prop where
  tex : Word f.tex
  tdef : DefOk quark f.tdef
  info : ∀ i, f.info = some i → InfoOk i

/-- A brush that can be written: it has faces, and none is a duplicate of one before. -/
structure BrushOk (env : Env N) (quark : Bool) (b : Brush N) : Prop where
  prim : b.prim = false
  nonempty : b.faces ≠ []
  faces : ∀ f ∈ b.faces, FaceOk quark f
  kept : ∀ a f c, b.faces = a ++ f :: c → env.keep (a.map Face.pts) f.pts = true

/-- An entity that can be written. -/
structure EntOk (env : Env N) (quark : Bool) (e : Ent N) : Prop where
  nodup : (e.pairs.map Prod.fst).Nodup
  keys : ∀ kv ∈ e.pairs, EntData.KeyOk kv.1 ∧ kv.1 ≠ [123]
  values : ∀ kv ∈ e.pairs, EntData.Body kv.2 ∨ ∃ t, kv.2 = t ++ [92] ∧ EntData.Body t
  brushes : ∀ b ∈ e.brushes, BrushOk env quark b

/-- Reading a number stops at the first byte that is no part of it, as `std::stod` and `std::stoi` do: here the two slashes of a
comment. No number starts with a slash. -/
structure Stops (env : Env N) : Prop where
  slash : ∀ x, (env.shown x).head? ≠ some 47
  slashInt : ∀ i, (env.shownInt i).head? ≠ some 47
  read : ∀ x c, env.read (env.shown x ++ 47 :: 47 :: c) = .ok x
  readI : ∀ i c, -2 ^ 31 ≤ i → i < 2 ^ 31 → env.readI (env.shownInt i ++ 47 :: 47 :: c) = .ok i

/-- A definition without the comment of QuArK. -/
def plainDef : Def N → Def N
  | .etp sh r sc _ => .quaked sh r sc
  | d => d

def plainFace (f : Face N) : Face N := { f with tdef := plainDef f.tdef }

def plainBrush (b : Brush N) : Brush N := { b with faces := b.faces.map plainFace }

/-- The entity without any comment of QuArK. -/
def plainEnt (e : Ent N) : Ent N := { e with brushes := e.brushes.map plainBrush }

/-- All faces of a map. -/
def faces (es : List (Ent N)) : List (Face N) := es.flatMap fun e => e.brushes.flatMap fun b => b.faces

/-- A map without its texture definitions: keys and values, and the points, textures and surface info of the faces. -/
def outline (es : List (Ent N)) :=
  es.map fun e => (e.pairs, e.brushes.map fun b => b.faces.map fun f => (f.p0, f.p1, f.p2, f.tex, f.info))

/-- The commands among the arguments behind the map file. A command is followed by its argument, except for
`--strip_extended_info`; what is no command is skipped, and the last argument is never taken for a command. -/
def commands : List Str → List (Cmd × Str)
  | [] => []
  | [_] => []
  | a :: b :: rest =>
    match cmdOf a with
    | none => commands (b :: rest)
    | some .strip => (.strip, []) :: commands (b :: rest)
    | some c => (c, b) :: commands rest
termination_by l => l.length

/-- The commands in turn, up to the first that fails. -/
def inTurn (env : Env N) (c : Cmds N) : List (Cmd × Str) → St N → Outcome (St N)
  | [], s => .ok s
  | x :: xs, s => do
    let s' ← exec env c s x.1 x.2
    inTurn env c xs s'

end Verif.MapUtil.Spec
