import Verif.BspUtil.Replace

/-!
Model of the commands of `bsputil` (bsputil/bsputil.cc:698-1562).

Simplifications: paths are file names without directories. What the commands compute from a map is given by the functions of `Env`
(`--check`, `--scale` and `--replace-entities` on maps are in `BspUtil/Check`, `BspUtil/Scale`, `BspUtil/Replace`; formats and files in
`BspFile`). Writing a file succeeds. The text that is printed is left out, except for commands that are not known.
-/

namespace Verif.BspUtil.Commands

open EntData (Str Dict)
open Replace (MEnt)

/-- The commands (bsputil/bsputil.cc:740-1553). -/
inductive Cmd where
  | svg | scale | replaceEntities | compare | convert | extractEntities | extractTextures | replaceTextures | check | modelinfo | findfaces | findleaf | settexinfo | decompile | decompileGeomonly | decompileIgnoreBrushes | decompileHull | extractLump | insertLump | removeLump
  deriving DecidableEq

/-- Their names. -/
def names : List (Str × Cmd) := [
  ([45, 45, 115, 118, 103], .svg),
  ([45, 45, 115, 99, 97, 108, 101], .scale),
  ([45, 45, 114, 101, 112, 108, 97, 99, 101, 45, 101, 110, 116, 105, 116, 105, 101, 115], .replaceEntities),
  ([45, 45, 99, 111, 109, 112, 97, 114, 101], .compare),
  ([45, 45, 99, 111, 110, 118, 101, 114, 116], .convert),
  ([45, 45, 101, 120, 116, 114, 97, 99, 116, 45, 101, 110, 116, 105, 116, 105, 101, 115], .extractEntities),
  ([45, 45, 101, 120, 116, 114, 97, 99, 116, 45, 116, 101, 120, 116, 117, 114, 101, 115], .extractTextures),
  ([45, 45, 114, 101, 112, 108, 97, 99, 101, 45, 116, 101, 120, 116, 117, 114, 101, 115], .replaceTextures),
  ([45, 45, 99, 104, 101, 99, 107], .check),
  ([45, 45, 109, 111, 100, 101, 108, 105, 110, 102, 111], .modelinfo),
  ([45, 45, 102, 105, 110, 100, 102, 97, 99, 101, 115], .findfaces),
  ([45, 45, 102, 105, 110, 100, 108, 101, 97, 102], .findleaf),
  ([45, 45, 115, 101, 116, 116, 101, 120, 105, 110, 102, 111], .settexinfo),
  ([45, 45, 100, 101, 99, 111, 109, 112, 105, 108, 101], .decompile),
  ([45, 45, 100, 101, 99, 111, 109, 112, 105, 108, 101, 45, 103, 101, 111, 109, 111, 110, 108, 121], .decompileGeomonly),
  ([45, 45, 100, 101, 99, 111, 109, 112, 105, 108, 101, 45, 105, 103, 110, 111, 114, 101, 45, 98, 114, 117, 115, 104, 101, 115], .decompileIgnoreBrushes),
  ([45, 45, 100, 101, 99, 111, 109, 112, 105, 108, 101, 45, 104, 117, 108, 108], .decompileHull),
  ([45, 45, 101, 120, 116, 114, 97, 99, 116, 45, 98, 115, 112, 120, 45, 108, 117, 109, 112], .extractLump),
  ([45, 45, 105, 110, 115, 101, 114, 116, 45, 98, 115, 112, 120, 45, 108, 117, 109, 112], .insertLump),
  ([45, 45, 114, 101, 109, 111, 118, 101, 45, 98, 115, 112, 120, 45, 108, 117, 109, 112], .removeLump)]

/-- Which command is asked for (the calls of `strcmp`, bsputil/bsputil.cc:740-1530). -/
def command (a : Str) : Option Cmd := (names.find? fun n => n.1 = a).map Prod.snd

/-! ### Paths -/

/-- `path::stem` and `path::extension` of a file name: split at the last dot, unless it is the first byte. -/
def splitExt (p : Str) : Str × Str :=
  let e := (p.reverse.takeWhile (· ≠ 46)).reverse
  let s := ((p.reverse.dropWhile (· ≠ 46)).drop 1).reverse
  if s = [] then (p, []) else (s, 46 :: e)

/-- `path::replace_extension`. -/
def replaceExt (p e : Str) : Str := (splitExt p).1 ++ e

def dotSvg : Str := [46, 115, 118, 103]
def dotEnt : Str := [46, 101, 110, 116]
def dotWad : Str := [46, 119, 97, 100]
def dotBsp : Str := [46, 98, 115, 112]
def dotDecompile : Str := [46, 100, 101, 99, 111, 109, 112, 105, 108, 101, 46, 109, 97, 112]
def dotHull : Str := [46, 100, 101, 99, 111, 109, 112, 105, 108, 101, 46, 104, 117, 108, 108]
def dotMap : Str := [46, 109, 97, 112]
def dotReplaced : Str := [46, 114, 101, 112, 108, 97, 99, 101, 100, 46, 109, 97, 112]
def scaledBsp : Str := [45, 115, 99, 97, 108, 101, 100, 46, 98, 115, 112]

/-! ### State -/

/-- `bspdata_t::bsp` (include/common/bspfile.hh:29-52): nothing (the source is a map), the generic form, or a format. -/
inductive Data (B C F : Type) where
  | nothing
  | generic (b : B)
  | as (f : F) (c : C)
  deriving DecidableEq

/-- What the commands compute. `conv` is a conversion from the generic form, `none` if limits are exceeded; `bytes` is the file that is written;
`load` is the format of the source. `format` finds a format by its short name; the outer `none` is an unknown one, the inner the generic. -/
structure Env (B C F : Type) where
  file : Str → Option Str
  scale : Str → Str → Str → B → Dict → B × Dict
  setEnts : Str → B → B
  ents : B → Str
  wad : Str → Option (B → B)
  exportWad : B → Str
  svg : B → Str
  format : Str → Option (Option F)
  conv : F → B → Option C
  bytes : F → C → Dict → Str
  load : F
  stof : Str → Bool
  stoi : Str → Option Int
  decimal : Int → Str
  setTex : Int → Int → B → Option B
  decompile : Cmd → Int → B → Str
  refBsp : Str → Bool

/-- The variables of `bsputil_main`: `source`, `bspdata.bsp`, the BSPX lumps and `map_file`. -/
structure St (B C F : Type) where
  path : Str
  data : Data B C F
  lumps : Dict
  map : List MEnt
  deriving DecidableEq

/-- What can be seen: files written, a file that was opened and left without contents, an unknown command. -/
inductive Ev where
  | wrote (path bytes : Str)
  | cut (path : Str)
  | unknown (a : Str)
  deriving DecidableEq

/-- How a command ends: the loop goes on with the remaining words, the program ends, fails (an error or an exception), or is undefined. -/
inductive Next (B C F : Type) where
  | go (st : St B C F) (rest : List Str)
  | done
  | failed
  | ub
  deriving DecidableEq

variable {B C F : Type}

/-- `ConvertBSPFormat` to a format other than the generic (common/bspfile.cc:1922-1980); its result is not looked at by the commands. From one
format to another nothing is done. -/
def convertTo (env : Env B C F) (f : F) : Data B C F → Data B C F
  | .nothing => .nothing
  | .generic b => match env.conv f b with
    | some c => .as f c
    | none => .generic b
  | .as g c => .as g c

/-- `ConvertBSPFormat` followed by `WriteBSPFile` (common/bspfile.cc:2525-2566; 2432-2433 for the generic form and nothing). `path` is the file,
`f` the format. Without a map `version` and `loadversion` were never set. -/
def writeAs (env : Env B C F) (f : F) (st : St B C F) (path : Str) (after : Next B C F → Next B C F) (rest : List Str) : List Ev × Next B C F :=
  match convertTo env f st.data with
  | .nothing => ([], .ub)
  | .generic _ => ([.cut path], .failed)
  | .as g c => ([.wrote path (env.bytes g c st.lumps)], after (.go { st with path := path, data := .as g c } rest))

/-- A command that needs the generic form: `std::get<mbsp_t>` throws otherwise. -/
def withBsp (st : St B C F) (k : B → List Ev × Next B C F) : List Ev × Next B C F :=
  match st.data with
  | .generic b => k b
  | _ => ([], .failed)

/-- `--scale` (bsputil/bsputil.cc:938-1178). `rest` are the words behind the command; behind the last is a null pointer. -/
def doScale (env : Env B C F) (st : St B C F) (rest : List Str) : List Ev × Next B C F :=
  match rest with
  | x :: y :: z :: rest => withBsp st fun b =>
      let r := env.scale x y z b st.lumps
      writeAs env env.load { st with data := .generic r.1, lumps := r.2 } ((splitExt st.path).1 ++ scaledBsp) id rest
  | [_, _] => ([], .ub)
  | _ => ([], .failed)

/-- `--replace-entities` (bsputil/bsputil.cc:1180-1269). -/
def doReplaceEntities (env : Env B C F) (st : St B C F) (rest : List Str) : List Ev × Next B C F :=
  match rest with
  | a :: (r :: rs) =>
    match st.data with
    | .generic b =>
      match env.file a with
      | none => ([], .failed)
      | some t => writeAs env env.load { st with data := .generic (env.setEnts t b) } st.path id (r :: rs)
    | _ =>
      match env.file a with
      | none => ([], .failed)
      | some t =>
        match Replace.load t with
        | .ub => ([], .ub)
        | .error => ([], .failed)
        | .ok es =>
          match Replace.replace st.map es with
          | .ub => ([], .ub)
          | .error => ([], .failed)
          | .ok out => ([.wrote (replaceExt st.path dotReplaced) (out.map Replace.writeEnt).flatten],
              .go { st with map := st.map.map fun e => { e with brushes := [] } } (r :: rs))
  | _ => ([], .failed)

/-- `--convert` (bsputil/bsputil.cc:1291-1313). The generic form can be asked for, but not written. -/
def doConvert (env : Env B C F) (st : St B C F) (rest : List Str) : List Ev × Next B C F :=
  match rest with
  | a :: (r :: rs) =>
    match env.format a with
    | none => ([], .failed)
    | some none =>
      match st.data with
      | .nothing => ([], .ub)
      | _ => ([.cut ((splitExt st.path).1 ++ 45 :: a)], .failed)
    | some (some f) => writeAs env f st ((splitExt st.path).1 ++ 45 :: a) id (r :: rs)
  | _ => ([], .failed)

/-- `--compare` (bsputil/bsputil.cc:1270-1290). -/
def doCompare (env : Env B C F) (st : St B C F) (rest : List Str) : List Ev × Next B C F :=
  match rest with
  | a :: _ :: _ => if env.refBsp a then withBsp st fun _ => ([], .done) else ([], .failed)
  | _ => ([], .failed)

/-- `--extract-entities` (bsputil/bsputil.cc:1314-1334). The checksum of an empty text counts down from -1. -/
def doExtractEntities (env : Env B C F) (st : St B C F) (rest : List Str) : List Ev × Next B C F :=
  withBsp st fun b =>
    if env.ents b = [] then ([], .ub)
    else ([.wrote (replaceExt st.path dotEnt) (env.ents b)], .go { st with path := replaceExt st.path dotEnt } rest)

/-- `--extract-textures` (bsputil/bsputil.cc:1335-1349). -/
def doExtractTextures (env : Env B C F) (st : St B C F) (rest : List Str) : List Ev × Next B C F :=
  withBsp st fun b => ([.wrote (replaceExt st.path dotWad) (env.exportWad b)], .go { st with path := replaceExt st.path dotWad } rest)

/-- `--replace-textures` (bsputil/bsputil.cc:1350-1368). The word behind the command is not skipped. -/
def doReplaceTextures (env : Env B C F) (st : St B C F) (rest : List Str) : List Ev × Next B C F :=
  match rest with
  | [] => ([], .failed)
  | a :: rs =>
    match env.wad a with
    | none => ([], .failed)
    | some r => withBsp st fun b => writeAs env env.load { st with data := .generic (r b) } st.path id (a :: rs)

/-- The program ends after the command. -/
def ends : Next B C F → Next B C F
  | .go _ _ => .done
  | n => n

/-- `--findfaces` and `--findleaf` (bsputil/bsputil.cc:1378-1412). -/
def doFind (env : Env B C F) (st : St B C F) (n : Nat) (rest : List Str) : List Ev × Next B C F :=
  if rest.length ≤ n then ([], .failed)
  else withBsp st fun _ => ([], if (rest.take n).all env.stof then .done else .failed)

/-- `--settexinfo` (bsputil/bsputil.cc:1413-1434). The words are counted together with the file. -/
def doSetTex (env : Env B C F) (st : St B C F) (rest : List Str) : List Ev × Next B C F :=
  match rest with
  | a :: c :: rs => withBsp st fun b =>
      match env.stoi a, env.stoi c with
      | some m, some n =>
        match env.setTex m n b with
        | none => ([], .failed)
        | some b' => writeAs env env.load { st with data := .generic b' } st.path ends rs
      | _, _ => ([], .failed)
  | _ => ([], .failed)

/-- `--decompile` and its variants (bsputil/bsputil.cc:1435-1475). The file is opened before the map is looked at. -/
def doDecompile (env : Env B C F) (st : St B C F) (c : Cmd) (n : Int) (path : Str) : List Ev × Next B C F :=
  match st.data with
  | .generic b => ([.wrote path (env.decompile c n b)], .done)
  | _ => ([.cut path], .failed)

/-- `--decompile-hull` (bsputil/bsputil.cc:1441-1448). -/
def doDecompileHull (env : Env B C F) (st : St B C F) (rest : List Str) : List Ev × Next B C F :=
  match rest with
  | [] => ([], .failed)
  | a :: _ =>
    match env.stoi a with
    | none => ([], .failed)
    | some n => doDecompile env st .decompileHull n (replaceExt st.path (dotHull ++ env.decimal n ++ dotMap))

/-- `--extract-bspx-lump` (bsputil/bsputil.cc:1476-1504). Both words are read before they are counted. -/
def doExtractLump (st : St B C F) (rest : List Str) : List Ev × Next B C F :=
  match rest with
  | n :: o :: _ :: _ =>
    match EntData.find st.lumps n with
    | none => ([], .failed)
    | some d => ([.wrote o d], .done)
  | [_, _] => ([], .failed)
  | _ => ([], .ub)

/-- `--insert-bspx-lump` (bsputil/bsputil.cc:1505-1529). -/
def doInsertLump (env : Env B C F) (st : St B C F) (rest : List Str) : List Ev × Next B C F :=
  match rest with
  | n :: i :: r :: rs =>
    match env.file i with
    | none => ([], .failed)
    | some d => writeAs env env.load { st with lumps := EntData.set st.lumps n d } st.path ends (r :: rs)
  | [_, _] => ([], .failed)
  | _ => ([], .ub)

/-- `--remove-bspx-lump` (bsputil/bsputil.cc:1530-1553). -/
def doRemoveLump (env : Env B C F) (st : St B C F) (rest : List Str) : List Ev × Next B C F :=
  match rest with
  | n :: r :: rs =>
    match EntData.find st.lumps n with
    | none => ([], .failed)
    | some _ => writeAs env env.load { st with lumps := EntData.remove st.lumps n } st.path ends (r :: rs)
  | _ => ([], .failed)

/-- One command (bsputil/bsputil.cc:740-1556); `--svg`, `--check`, `--modelinfo` and unknown ones here. -/
def step (env : Env B C F) (st : St B C F) (a : Str) (rest : List Str) : List Ev × Next B C F :=
  match command a with
  | none => ([.unknown a], .go st rest)
  | some .svg =>
    match st.data with
    | .generic b => ([.wrote (replaceExt st.path dotSvg) (env.svg b)], .go st rest)
    | _ => ([.cut (replaceExt st.path dotSvg)], .failed)
  | some .scale => doScale env st rest
  | some .replaceEntities => doReplaceEntities env st rest
  | some .compare => doCompare env st rest
  | some .convert => doConvert env st rest
  | some .extractEntities => doExtractEntities env st rest
  | some .extractTextures => doExtractTextures env st rest
  | some .replaceTextures => doReplaceTextures env st rest
  | some .check => withBsp st fun _ => ([], .go st rest)
  | some .modelinfo => withBsp st fun _ => ([], .go st rest)
  | some .findfaces => doFind env st 6 rest
  | some .findleaf => doFind env st 3 rest
  | some .settexinfo => doSetTex env st rest
  | some .decompile => doDecompile env st .decompile 0 (replaceExt st.path dotDecompile)
  | some .decompileGeomonly => doDecompile env st .decompileGeomonly 0 (replaceExt st.path dotDecompile)
  | some .decompileIgnoreBrushes => doDecompile env st .decompileIgnoreBrushes 0 (replaceExt st.path dotDecompile)
  | some .decompileHull => doDecompileHull env st rest
  | some .extractLump => doExtractLump st rest
  | some .insertLump => doInsertLump env st rest
  | some .removeLump => doRemoveLump env st rest

/-- How the program ends. -/
inductive End where
  | done | failed | ub
  deriving DecidableEq

/-- The loop (bsputil/bsputil.cc:739-1557). `n` bounds the words that are left; the last word is the file. -/
def run (env : Env B C F) : Nat → List Str → St B C F → List Ev × End
  | n + 1, a :: r :: rs, st =>
    match step env st a (r :: rs) with
    | (ev, .done) => (ev, .done)
    | (ev, .failed) => (ev, .failed)
    | (ev, .ub) => (ev, .ub)
    | (ev, .go st' rest) => let x := run env n rest st'; (ev ++ x.1, x.2)
  | _, _, _ => ([], .done)

/-- `bsputil_main` after loading: `words` are the words of the command line, the last of them the file. -/
def main (env : Env B C F) (words : List Str) (st : St B C F) : List Ev × End := run env words.length words st

end Verif.BspUtil.Commands
