import Verif.Styles.Model
import Mathlib.Algebra.Order.Field.Basic

/-!
Model of the second pass over the entities in light: which become lights, and the keys of Arghrad (light/entities.cc:962-1004).

Simplifications: reading numbers (`get_float`) and writing them (`std::to_string`) are given functions on exact numbers. What
follows in the loop is C234 and C131.
-/

namespace Verif.Styles

open Verif.EntData (Str Dict get set find rename)

/-- Numbers in texts. -/
structure Texts (F : Type) where
  value : Str → F
  show_ : F → Str

/-- `-nolights`, `-nolighting`, `-arghradcompat` (light/entities.cc:963, 975, 992). -/
structure LoadOptions where
  nolights : Bool
  nolighting : Bool
  arghrad : Bool

variable {F : Type} [Field F] [LinearOrder F]

/-- The change of `_anglescale` (light/entities.cc:983-988). -/
def halveScale (env : Texts F) (d : Dict) : Dict :=
  match find d (lit "_anglescale") with
  | none => d
  | some v => set d (lit "_anglescale") (env.show_ (min 1 (max 0 (env.value v * (1 / 2)))))

/-- The keys of Arghrad (light/entities.cc:975-989). -/
def arghrad (env : Texts F) (d : Dict) : Dict :=
  let d := rename d (lit "_falloff") (lit "delay")
  let d := rename d (lit "_distance") (lit "_falloff")
  let d := rename d (lit "_fade") (lit "wait")
  let d := rename d (lit "_angfade") (lit "_anglescale")
  let d := rename d (lit "_angwait") (lit "_anglescale")
  halveScale env d

/-- The test for lights that are left out (light/entities.cc:992-995). -/
def leftOut (o : LoadOptions) (d : Dict) : Bool :=
  o.nolighting && (get d (lit "style")).isEmpty && (get d (lit "switchshadstyle")).isEmpty

/-- The loop (light/entities.cc:968-1053): the entities afterwards and the lights. -/
def loadLoop (o : LoadOptions) (env : Texts F) : List Dict → List Dict × List Dict
  | [] => ([], [])
  | d :: ds =>
    let r := loadLoop o env ds
    if isLight d then
      let d' := if o.arghrad then arghrad env d else d
      if leftOut o d' then (d' :: r.1, r.2) else (d' :: r.1, d' :: r.2)
    else (d :: r.1, r.2)

/-- The second pass (light/entities.cc:962-1053). -/
def secondPass (o : LoadOptions) (env : Texts F) (ds : List Dict) : List Dict × List Dict :=
  if o.nolights then (ds, []) else loadLoop o env ds

end Verif.Styles
