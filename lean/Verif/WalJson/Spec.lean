import Verif.WalJson.Model

/-! What the documentation of `.wal_json` files says (docs/qbsp.rst:847-902). -/

namespace Verif.WalJson

open Verif.EntData (Str)

/-- An object has this value for a key, the first one that is there. -/
def Has (j : Json) (key : String) (v : Json) : Prop :=
  ∃ before after, j = .obj (before ++ (text key, v) :: after) ∧ ∀ kv ∈ before, kv.1 ≠ text key

/-- There is no value for a key. -/
def Lacks (j : Json) (key : String) : Prop := ∀ l, j = .obj l → ∀ kv ∈ l, kv.1 ≠ text key

/-- The bits that a value stands for: a number or a name. -/
def BitOf (named : Str → BitVec 32) (i : Nat) : Json → Prop
  | .int n => (BitVec.ofInt 32 n).getLsbD i = true
  | .str s => (named s).getLsbD i = true
  | _ => False

/-- The bits that the documentation gives a key: a number, a name, or an array of these. -/
def BitsGiven (named : Str → BitVec 32) (i : Nat) : Json → Prop
  | .arr l => ∃ e ∈ l, BitOf named i e
  | v => BitOf named i v

/-- A number, a name or an array. -/
def Valid : Json → Prop
  | .int _ => True
  | .str _ => True
  | .arr _ => True
  | _ => False

end Verif.WalJson
