/-!
Model of `entdict_t` (common/entdata.cc, include/common/entdata.h): an ordered list of key/value pairs.
Strings are byte lists.
-/

namespace Verif.EntData

abbrev Str := List UInt8
/-- `keyvalues_t` (include/common/entdata.h:33-34). -/
abbrev Dict := List (Str × Str)

/-- `entdict_t::find` (common/entdata.cc:116-138): the value of the first pair with the key. -/
def find : Dict → Str → Option Str
  | [], _ => none
  | (k, v) :: d, key => if key = k then some v else find d key

/-- `entdict_t::get` (common/entdata.cc:41-49). -/
def get (d : Dict) (key : Str) : Str :=
  match find d key with
  | some v => v
  | none => []

/-- `entdict_t::has` (common/entdata.cc:140-143). -/
def has (d : Dict) (key : Str) : Bool := (find d key).isSome

/-- `entdict_t::set` (common/entdata.cc:86-97). -/
def set : Dict → Str → Str → Dict
  | [], key, value => [(key, value)]
  | (k, v) :: d, key, value => if key = k then (k, value) :: d else (k, v) :: set d key value

/-- `entdict_t::remove` (common/entdata.cc:99-104). -/
def remove : Dict → Str → Dict
  | [], _ => []
  | (k, v) :: d, key => if key = k then d else (k, v) :: remove d key

/-- `entdict_t::rename` (common/entdata.cc:106-114). -/
def rename (d : Dict) (src dst : Str) : Dict :=
  match find d src with
  | none => d
  | some v => remove d src ++ [(dst, v)]

/-- Calls that change a dictionary. -/
inductive Op where
  | set (key value : Str)
  | remove (key : Str)
  | rename (src dst : Str)
  deriving Repr, DecidableEq

/-- One call. -/
def Op.apply (d : Dict) : Op → Dict
  | .set k v => EntData.set d k v
  | .remove k => EntData.remove d k
  | .rename a b => EntData.rename d a b

end Verif.EntData
