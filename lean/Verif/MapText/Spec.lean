import Verif.MapText.Model

/-!
What a map must be like so that it can be written as text.
-/

namespace Verif.MapText.Spec

open Verif.EntData (Str Dict)

variable {N : Type}

/-- A word: it is not empty, its bytes are printable ones of ASCII other than space, and it does not start with a quote, a
semicolon or two slashes. -/
structure Word (w : Str) : Prop where
  nonempty : w ≠ []
  ink : ∀ b ∈ w, 32 < b ∧ b < 128
  quote : w.head? ≠ some 34
  semicolon : w.head? ≠ some 59
  comment : ¬ [47, 47] <+: w

/-- Numbers can be read from their text, and `0` is a number. -/
structure Numbers (env : Env N) : Prop where
  word : ∀ x, Word (env.shown x)
  bracket : ∀ x, env.shown x ≠ [91]
  read : ∀ x, env.read (env.shown x) = .ok x
  zero : ∃ z, env.read [48] = .ok z
  wordInt : ∀ i, Word (env.shownInt i)
  readU : ∀ i, 0 ≤ i → i < 2 ^ 32 → env.readU (env.shownInt i) = .ok i
  readI : ∀ i, -2 ^ 31 ≤ i → i < 2 ^ 31 → env.readI (env.shownInt i) = .ok i
  zeroU : env.readU [48] = .ok 0
  zeroI : env.readI [48] = .ok 0

/-- The surface info fits its types. -/
def InfoOk (i : Int × Int × Int) : Prop :=
  (0 ≤ i.1 ∧ i.1 < 2 ^ 32) ∧ (-2 ^ 31 ≤ i.2.1 ∧ i.2.1 < 2 ^ 31) ∧ (-2 ^ 31 ≤ i.2.2 ∧ i.2.2 < 2 ^ 31)

/-- The definition is one that is written to this kind of file: brush primitives, or the two others. -/
def DefOk (bp : Bool) : Def N → Prop
  | .quaked _ _ _ q => bp = false ∧ q = 0
  | .valve _ _ _ => bp = false
  | .prim _ _ => bp = true

/-- A face that can be written. -/
structure FaceOk (bp : Bool) (f : Face N) : Prop where
  tex : Word f.tex
  tdef : DefOk bp f.tdef
  info : ∀ i, f.info = some i → InfoOk i

/-- A brush that can be written: it has faces, none is a duplicate of one before, and it is not a region. -/
structure BrushOk (env : Env N) (bp : Bool) (b : List (Face N)) : Prop where
  nonempty : b ≠ []
  faces : ∀ f ∈ b, FaceOk bp f
  kept : ∀ a f c, b = a ++ f :: c → env.keep (a.map Face.pts) f.pts = true
  region : ¬ ∀ f ∈ b, regionName <:+ f.tex

/-- An entity that can be written. -/
structure EntOk (env : Env N) (bp : Bool) (e : Ent N) : Prop where
  nodup : (e.pairs.map Prod.fst).Nodup
  keys : ∀ kv ∈ e.pairs, EntData.KeyOk kv.1 ∧ kv.1 ≠ [123]
  values : ∀ kv ∈ e.pairs, EntData.Body kv.2 ∨ ∃ t, kv.2 = t ++ [92] ∧ EntData.Body t
  brushes : ∀ b ∈ e.brushes, BrushOk env bp b
  /-- If the brushes are to be left out there are none. -/
  omitted : ∀ v, (omitKey, v) ∈ e.pairs → env.atoi v ≠ 0 → e.brushes = []

/-- A face with the info that is written: brush primitives always have some. -/
def shownFace (bp : Bool) (f : Face N) : Face N := if bp then { f with info := some (f.info.getD (0, 0, 0)) } else f

/-- The entity with these faces. -/
def shownEnt (bp : Bool) (e : Ent N) : Ent N := { e with brushes := e.brushes.map fun b => b.map (shownFace bp) }

/-- A text in which each word has a blank behind it, each comment the end of its line, and each quoted string its quote. -/
inductive Lex : Str → Prop
  | nil : Lex []
  | blank {b : UInt8} {t : Str} : b ≤ 32 ∨ 128 ≤ b → Lex t → Lex (b :: t)
  | comment {c t : Str} : (∃ u, c = 47 :: 47 :: u ∨ c = 59 :: u) → 10 ∉ c → 0 ∉ c → Lex t → Lex (c ++ 10 :: t)
  | word {w : Str} {b : UInt8} {t : Str} : w ≠ [] → (∀ c ∈ w, 32 < c ∧ c < 128) → w.head? ≠ some 34 → w.head? ≠ some 59 →
      ¬ [47, 47] <+: w → b ≤ 32 ∨ 128 ≤ b → Lex (b :: t) → Lex (w ++ b :: t)
  | quoted {s tok t : Str} : Parser.quoted s = .ok (tok, t) → Lex t → Lex (34 :: s)

/-- The functions that turn text into numbers give a number or an error. -/
structure Reads (env : Env N) : Prop where
  read : ∀ t, env.read t ≠ .ub
  readU : ∀ t, env.readU t ≠ .ub
  readI : ∀ t, env.readI t ≠ .ub

end Verif.MapText.Spec
