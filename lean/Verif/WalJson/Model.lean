import Verif.EntData.Dict

/-!
Model of the metadata of textures of Quake II: `load_wal_json_meta` (common/imglib.cc:370-457) and `load_texture_meta`
(common/imglib.cc:459-481).

Simplifications: parsing JSON, loading files and reading the header of a `.wal` are given functions; a number with a fraction is
what its conversion to `int32_t` gives. Names of contents and of flags that are not known stand for what the given functions say.
The file names `.` and `..` are not treated as special.
-/

namespace Verif.WalJson

open Verif.EntData (Str)

/-- A string literal. -/
def text (s : String) : Str := s.toUTF8.toList

/-- A JSON value. -/
inductive Json where
  | null
  | bool (b : Bool)
  | int (n : Int)
  | float (n : Int)
  | str (s : Str)
  | arr (l : List Json)
  | obj (l : List (Str × Json))

/-- `texture_meta` (include/common/imglib.hh:46-63) without the extension. -/
structure Meta where
  name : Str
  width : BitVec 32
  height : BitVec 32
  color : Option (BitVec 8 × BitVec 8 × BitVec 8)
  flags : BitVec 32
  contents : BitVec 32
  value : BitVec 32
  animation : Str

/-- What is given: files by their paths, the JSON parser (`none`: an exception), the header of a `.wal`, and the names of the
game. -/
structure World (File : Type) where
  files : Str → Option File
  parse : File → Option Json
  wal : Str → File → Option Meta
  contentsNamed : Str → BitVec 32
  flagsNamed : Str → BitVec 32

variable {File : Type}

/-- `texture_meta meta{}` with its name (common/imglib.cc:377-379). -/
def empty (name : Str) : Meta := ⟨name, 0, 0, none, 0, 0, 0, []⟩

/-- The reversed path in front of the extension, if there is one. -/
def stem : Str → Option Str
  | [] => none
  | c :: cs =>
    if c = 47 then none
    else if c = 46 then (if cs = [] ∨ cs.head? = some 47 then none else some cs)
    else stem cs

/-- `fs::path(name).replace_extension(".wal")` (common/imglib.cc:382). -/
def walPath (name : Str) : Str := ((stem name.reverse).elim name List.reverse) ++ text ".wal"

/-- `json.contains(key)` and `json[key]` (common/imglib.cc:389-445): nothing but an object contains a key. -/
def member (j : Json) (key : String) : Option Json :=
  match j with
  | .obj l => (l.find? fun kv => kv.1 = text key).map Prod.snd
  | _ => none

/-- A key with an integer (common/imglib.cc:389-399). -/
def intMember (j : Json) (key : String) (old : BitVec 32) : BitVec 32 :=
  match member j key with
  | some (.int n) => BitVec.ofInt 32 n
  | _ => old

/-- The loop over an array (common/imglib.cc:411-417, 430-436). -/
def orAll (named : Str → BitVec 32) : List Json → BitVec 32 → BitVec 32
  | [], acc => acc
  | .int n :: l, acc => orAll named l (acc ||| BitVec.ofInt 32 n)
  | .str s :: l, acc => orAll named l (acc ||| named s)
  | _ :: l, acc => orAll named l acc

/-- The contents (common/imglib.cc:401-420). -/
def jsonContents (named : Str → BitVec 32) (j : Json) (old : BitVec 32) : BitVec 32 :=
  match member j "contents" with
  | some (.int n) => BitVec.ofInt 32 n
  | some (.str s) => named s
  | some (.arr l) => orAll named l 0
  | _ => old

/-- The flags (common/imglib.cc:422-438). -/
def jsonFlags (named : Str → BitVec 32) (j : Json) (old : BitVec 32) : BitVec 32 :=
  match member j "flags" with
  | some (.int n) => BitVec.ofInt 32 n
  | some (.str s) => named s
  | some (.arr l) => orAll named l old
  | _ => old

/-- `get<int32_t>()`, then a byte (common/imglib.cc:447); `none`: an exception. -/
def byteOf : Json → Option (BitVec 8)
  | .int n => some (BitVec.ofInt 8 n)
  | .float n => some (BitVec.ofInt 8 n)
  | .bool b => some (if b then 1 else 0)
  | _ => none

/-- `color.at(i)` (common/imglib.cc:447); `none`: an exception. -/
def elemAt (j : Json) (i : Nat) : Option Json :=
  match j with
  | .arr l => l[i]?
  | _ => none

/-- The colour (common/imglib.cc:444-450); `none`: an exception. -/
def jsonColor (j : Json) (old : Option (BitVec 8 × BitVec 8 × BitVec 8)) :
    Option (Option (BitVec 8 × BitVec 8 × BitVec 8)) :=
  match member j "color" with
  | none => some old
  | some c => do
    let r ← (elemAt c 0).bind byteOf
    let g ← (elemAt c 1).bind byteOf
    let b ← (elemAt c 2).bind byteOf
    some (some (r, g, b))

/-- The next texture (common/imglib.cc:440-442). -/
def jsonAnimation (j : Json) (old : Str) : Str :=
  match member j "animation" with
  | some (.str s) => s
  | _ => old

/-- The values to start with (common/imglib.cc:377-387). -/
def startMeta (w : World File) (name : Str) : Meta :=
  match w.files (walPath name) with
  | none => empty name
  | some f => (w.wal (walPath name) f).getD (empty name)

/-- `load_wal_json_meta` (common/imglib.cc:371-457). -/
def jsonMeta (w : World File) (name : Str) (file : File) : Option Meta :=
  (w.parse file).bind fun j =>
    let m := startMeta w name
    (jsonColor j m.color).map fun c =>
      { m with
        width := intMember j "width" m.width
        height := intMember j "height" m.height
        value := intMember j "value" m.value
        contents := jsonContents w.contentsNamed j m.contents
        flags := jsonFlags w.flagsNamed j m.flags
        animation := jsonAnimation j m.animation
        color := c }

/-- The path of a file of a texture (common/imglib.cc:462-469). -/
def metaPath (quake2 : Bool) (name : Str) (suffix : String) : Str :=
  (if quake2 then text "textures/" else []) ++ name ++ text suffix

/-- `load_texture_meta` (common/imglib.cc:459-481) with the list of include/common/imglib.hh:140-141. -/
def textureMeta (w : World File) (quake2 : Bool) (name : Str) : Option Meta :=
  (((w.files (metaPath quake2 name ".wal_json")).bind (jsonMeta w name))).or
    ((w.files (metaPath quake2 name ".wal")).bind (w.wal name))

end Verif.WalJson
