import Verif.MapText.Model
import Verif.TexDef.Model

/-!
Model of the map files of `maputil`: how they are read, written and converted (common/mapfile.cc, include/common/mapfile.hh),
and the commands of the tool (maputil/maputil.cc:922-1024).

Simplifications: numbers are of some type with functions to and from text, as in `MapText/Model`, whose functions for points, axes,
words and keys are used for the same code here. `env.keep` says whether a face has a normal and is not a duplicate of one before
(common/mapfile.cc:983-995). A number that is read although it was never set is `none`; to write it is undefined. Lua queries and
scripts are functions from maps to maps, of which nothing is supposed. Files are not opened: `saved` is what they are given.
What a definition is converted to is a parameter of the commands, and is modelled in `convertDef` for one face.
-/

namespace Verif.MapUtil

open Verif.Parser (State parseToken)
open Verif.EntData (Str Dict writePair)
open Verif.MapText (Env Pt word num three point planeDef axis row parseStart parseEnd parseEpair wNum wThree brushDef)

variable {N : Type}

/-- `raw` (include/common/mapfile.hh:44-63, 121). -/
inductive Def (N : Type) where
  /-- `texdef_quake_ed_t`. -/
  | quaked (shift : N × N) (rotate : N) (scale : N × N)
  /-- `texdef_etp_t`. -/
  | etp (shift : N × N) (rotate : N) (scale : N × N) (tx2 : Bool)
  /-- `texdef_valve_t`: axis and shift of s and of t. -/
  | valve (s t : Pt N × N) (rotate : Option N) (scale : N × N)
  /-- `texdef_bp_t`. -/
  | prim (s t : Pt N)
  deriving DecidableEq

/-- `brush_side_t` (include/common/mapfile.hh:111-131), without what is computed from it; `info` is `extended_info`. -/
structure Face (N : Type) where
  p0 : Pt N
  p1 : Pt N
  p2 : Pt N
  tex : Str
  tdef : Def N
  info : Option (Int × Option Int × Option Int)
  deriving DecidableEq

/-- `planepts`. -/
def Face.pts (f : Face N) : Pt N × Pt N × Pt N := (f.p0, f.p1, f.p2)

/-- `brush_t`: `prim` if `base_format` is that of brush primitives. -/
structure Brush (N : Type) where
  prim : Bool
  faces : List (Face N)
  deriving DecidableEq

/-- `map_entity_t`. -/
structure Ent (N : Type) where
  pairs : Dict
  brushes : List (Brush N)
  deriving DecidableEq

/-- `parse_quark_comment` (common/mapfile.cc:166-185): whether it is the second type, if the comment is one of QuArK. -/
def quarkComment (d : Def N) (p : State) : Outcome (Option Bool × State) := do
  let c ← parseToken 0 { comment := true, optional := true } false p
  if c.1 = false then .ok (none, c.2)
  else if c.2.token.length < 5 ∨ c.2.token.take 4 ≠ [47, 47, 84, 88] then .ok (none, c.2)
  else
    match d with
    | .quaked _ _ _ =>
      if c.2.token[4]? = some 49 then .ok (some false, c.2)
      else if c.2.token[4]? = some 50 then .ok (some true, c.2)
      else .ok (none, c.2)
    | _ => .error

/-- The definition with the type of QuArK (common/mapfile.cc:183). -/
def Def.withQuark (d : Def N) (q : Option Bool) : Def N :=
  match d, q with
  | .quaked sh r sc, some tx2 => .etp sh r sc tx2
  | d, _ => d

/-- An optional number (common/mapfile.cc:196-201). -/
def optInt (env : Env N) (p : State) : Outcome (Option Int × State) := do
  let a ← parseToken 0 { optional := true } false p
  if a.1 then do
    let n ← env.readI a.2.token
    .ok (some n, a.2)
  else .ok (none, a.2)

/-- `parse_extended_texinfo` (common/mapfile.cc:187-208). -/
def extended (env : Env N) (d : Def N) (p : State) : Outcome ((Option Bool × Option (Int × Option Int × Option Int)) × State) := do
  let q ← quarkComment d p
  match q.1 with
  | some b => .ok ((some b, none), q.2)
  | none => do
    let a ← optInt env q.2
    match a.1 with
    | none => .ok ((none, none), a.2)
    | some n => do
      let b ← optInt env a.2
      let c ← optInt env b.2
      let q' ← quarkComment d c.2
      .ok ((q'.1, some (n, b.1, c.1)), q'.2)

/-- `parse_valve_220` (common/mapfile.cc:93-139). -/
def valveTX (env : Env N) (p : State) : Outcome (Def N × State) := do
  let a ← axis env p
  let b ← axis env a.2
  let rot ← num env b.2
  let x ← num env rot.2
  let y ← num env x.2
  .ok (.valve a.1 b.1 (some rot.1) (x.1, y.1), y.2)

/-- `parse_quake_ed` (common/mapfile.cc:141-164). -/
def quakeTX (env : Env N) (p : State) : Outcome (Def N × State) := do
  let a ← num env p
  let b ← num env a.2
  let r ← num env b.2
  let c ← num env r.2
  let d ← num env c.2
  .ok (.quaked (a.1, b.1) r.1 (c.1, d.1), d.2)

/-- `parse_bp` (common/mapfile.cc:53-91). -/
def primTX (env : Env N) (p : State) : Outcome (Def N × State) := do
  let s ← MapText.expect 40 p
  let a ← row env s
  let b ← row env a.2
  let s ← MapText.expect 41 b.2
  .ok (.prim a.1 b.1, s)

/-- `parse_texture_def` (common/mapfile.cc:425-451): the texture, its definition and the surface info. For brush primitives
`set_texinfo` is an error (common/mapfile.cc:413-423). -/
def textureDef (env : Env N) (bp : Bool) (p : State) : Outcome ((Str × Def N × Option (Int × Option Int × Option Int)) × State) :=
  if bp then do
    let m ← primTX env p
    let t ← word m.2
    let _ ← extended env m.1 t
    .error
  else do
    let t ← word p
    let k ← parseToken 0 { sameline := true } true t
    let m ← (if k.2.token = [91] then valveTX env k.2 else quakeTX env k.2)
    let x ← extended env m.1 m.2
    .ok ((t.token, m.1.withQuark x.1.1, x.1.2), x.2)

/-- The part of `parse_brush_face` that reads (common/mapfile.cc:963-981). -/
def parseFace (env : Env N) (bp : Bool) (p : State) : Outcome (Face N × State) := do
  let a ← planeDef env p
  let b ← textureDef env bp a.2
  .ok (⟨a.1.1, a.1.2.1, a.1.2.2, b.1.1, b.1.2.1, b.1.2.2⟩, b.2)

/-- The loop of `parse_brush` (common/mapfile.cc:1094-1106), with the checks of `parse_brush_face` (common/mapfile.cc:983-1011). -/
def parseFaces (env : Env N) (bp : Bool) : Nat → List (Face N) → State → Outcome (List (Face N) × State)
  | 0, _, _ => .ub
  | k + 1, acc, p => do
    let r ← parseToken 0 {} false p
    if r.1 = false ∨ r.2.token = [125] then .ok (acc, r.2)
    else do
      let f ← parseFace env bp r.2
      parseFaces env bp k (if env.keep (acc.map Face.pts) f.1.pts then acc ++ [f.1] else acc) f.2

/-- `map_entity_t::parse_brush` (common/mapfile.cc:1065-1121), without the test for no faces. -/
def parseBrush (env : Env N) (p : State) : Outcome (Brush N × State) := do
  let st ← parseStart p
  let fs ← parseFaces env st.1 (st.2.rest.length + 1) [] st.2
  let e ← parseEnd st.1 fs.2
  .ok (⟨st.1, fs.1⟩, e)

/-- The loop of `map_entity_t::parse` (common/mapfile.cc:1135-1147), with the end of `parse_brush` (common/mapfile.cc:1118-1120) and
`parse_entity_dict` (common/mapfile.cc:1049-1063). -/
def parseBody (env : Env N) : Nat → Ent N → State → Outcome (Ent N × State)
  | 0, _, _ => .ub
  | k + 1, e, p => do
    let r ← parseToken 0 {} false p
    if r.1 = false then .error
    else if r.2.token = [125] then .ok (e, r.2)
    else if r.2.token = [123] then do
      let b ← parseBrush env r.2
      parseBody env k (if b.1.faces.isEmpty then e else { e with brushes := e.brushes ++ [b.1] }) b.2
    else do
      let d ← parseEpair env e.pairs r.2
      parseBody env k { e with pairs := d.1 } d.2

/-- `map_entity_t::parse` (common/mapfile.cc:1123-1150). -/
def parseEntity (env : Env N) (p : State) : Outcome (Option (Ent N) × State) := do
  let r ← parseToken 0 {} false p
  if r.1 = false then .ok (none, r.2)
  else if r.2.token ≠ [123] then .error
  else do
    let e ← parseBody env (r.2.rest.length + 1) ⟨[], []⟩ r.2
    .ok (some e.1, e.2)

/-- The loop of `map_file_t::parse` (common/mapfile.cc:1170-1183). -/
def parseEnts (env : Env N) : Nat → List (Ent N) → State → Outcome (List (Ent N))
  | 0, _, _ => .ub
  | k + 1, acc, p => do
    let r ← parseEntity env p
    match r.1 with
    | none => .ok acc
    | some e => parseEnts env k (acc ++ [e]) r.2

/-- `LoadMapOrEntFile` (maputil/maputil.cc:45-62), for a file that exists. -/
def load (env : Env N) (text : Str) : Outcome (List (Ent N)) := parseEnts env (text.length + 1) [] (Parser.ofFile text)

/-- `write_extended_info` (common/mapfile.cc:482-487). -/
def wInfo (env : Env N) : Option (Int × Option Int × Option Int) → Outcome Str
  | none => .ok []
  | some (c, some f, some v) => .ok ([32] ++ env.shownInt c ++ [32] ++ env.shownInt f ++ [32] ++ env.shownInt v)
  | some _ => .ub

/-- `write_texinfo` for QuakeEd (common/mapfile.cc:489-493). -/
def wQuaked (env : Env N) (sh : N × N) (r : N) (sc : N × N) (info : Option (Int × Option Int × Option Int)) : Outcome Str := do
  let i ← wInfo env info
  .ok (wNum env sh.1 ++ wNum env sh.2 ++ wNum env r ++ wNum env sc.1 ++ env.shown sc.2 ++ i)

/-- `//TX1` or `//TX2` (common/mapfile.cc:507). -/
def txName (tx2 : Bool) : Str := [47, 47, 84, 88, if tx2 then 50 else 49]

/-- `write_texinfo` (common/mapfile.cc:489-513). -/
def wDef (env : Env N) (f : Face N) : Outcome Str :=
  match f.tdef with
  | .quaked sh r sc => wQuaked env sh r sc f.info
  | .etp sh r sc tx2 => do
    let t ← wQuaked env sh r sc f.info
    .ok (t ++ txName tx2)
  | .valve s t rot sc =>
    match rot with
    | none => .ub
    | some r => do
      let i ← wInfo env f.info
      .ok ([91, 32] ++ wThree env s.1 ++ wNum env s.2 ++ [93, 32, 91, 32] ++ wThree env t.1 ++ wNum env t.2 ++ [93, 32] ++
        wNum env r ++ wNum env sc.1 ++ env.shown sc.2 ++ i)
  | .prim _ _ => .error

/-- `( x y z ) ` (common/mapfile.cc:517). -/
def wPoint (env : Env N) (v : Pt N) : Str := [40, 32] ++ wThree env v ++ [41, 32]

/-- `brush_side_t::write` and the end of the line (common/mapfile.cc:515-522, 1023-1024). -/
def wFace (env : Env N) (f : Face N) : Outcome Str := do
  let d ← wDef env f
  .ok (wPoint env f.p0 ++ wPoint env f.p1 ++ wPoint env f.p2 ++ f.tex ++ [32] ++ d ++ [10])

/-- Writing one thing after another. -/
def wAll {α : Type} (f : α → Outcome Str) : List α → Outcome Str
  | [] => .ok []
  | a :: as => do
    let t ← f a
    let u ← wAll f as
    .ok (t ++ u)

/-- `brush_t::write` (common/mapfile.cc:1014-1032). -/
def wBrush (env : Env N) (b : Brush N) : Outcome Str := do
  let t ← wAll (wFace env) b.faces
  .ok ([123, 10] ++ (if b.prim then brushDef ++ [10, 123, 10] else []) ++ t ++ (if b.prim then [125, 10] else []) ++ [125, 10])

/-- `// brush `. -/
def brushLine : Str := [47, 47, 32, 98, 114, 117, 115, 104, 32]

/-- `// entity `. -/
def entityLine : Str := [47, 47, 32, 101, 110, 116, 105, 116, 121, 32]

/-- The brushes, from this number on (common/mapfile.cc:1160-1165). -/
def wBrushes (env : Env N) : Nat → List (Brush N) → Outcome Str
  | _, [] => .ok []
  | i, b :: bs => do
    let t ← wBrush env b
    let u ← wBrushes env (i + 1) bs
    .ok (brushLine ++ env.shownInt (i : Int) ++ [10] ++ t ++ u)

/-- `map_entity_t::write` (common/mapfile.cc:1152-1168). -/
def wEnt (env : Env N) (e : Ent N) : Outcome Str := do
  let t ← wBrushes env 0 e.brushes
  .ok ([123, 10] ++ (e.pairs.map writePair).flatten ++ t ++ [125, 10])

/-- The entities, from this number on (common/mapfile.cc:1187-1192). -/
def wEnts (env : Env N) : Nat → List (Ent N) → Outcome Str
  | _, [] => .ok []
  | i, e :: es => do
    let t ← wEnt env e
    let u ← wEnts env (i + 1) es
    .ok (entityLine ++ env.shownInt (i : Int) ++ [10] ++ t ++ u)

/-- `map_file_t::write` (common/mapfile.cc:1185-1193). -/
def save (env : Env N) (es : List (Ent N)) : Outcome Str := wEnts env 0 es

/-! ### Conversion -/

/-- `texcoord_style_t`. -/
inductive Style where
  | quaked
  | etp
  | valve
  | prim
  deriving DecidableEq

/-- The test that the definition has the style already (common/mapfile.cc:912-934). -/
def Def.has (d : Def N) : Style → Bool
  | .quaked => match d with | .quaked _ _ _ => true | _ => false
  | .etp => match d with | .etp _ _ _ _ => true | _ => false
  | .valve => match d with | .valve _ _ _ _ => true | _ => false
  | .prim => match d with | .prim _ _ => true | _ => false

/-- A row as a point and a number. -/
def triple {K : Type} (v : Geom.Vec K) : Pt K := (v.x, v.y, v.z)

section
variable {K : Type} [Field K] [LinearOrder K]
open Geom TexDef

/-- `TexDef_BSPToQuakeEd` (common/mapfile.cc:757-846). `junk` is the normal of the plane of the `brush_side_t` that
`evalTexDefAtPoint` (common/mapfile.cc:725-733) computes texture coordinates with: it is never set. -/
def toQuakeEd (env : TexDef.Env K) (junk n : Vec K) (size : Option (BitVec 32 × BitVec 32)) (x : Tex K) (p0 p1 p2 : Vec K) :
    Outcome (Ed K) := do
  let r ← reverse env (planeToUV env n x p0 p1 p2) n
  let actual := (quakeEd env junk ⟨(0, 0), r.1, (r.2.1, r.2.2)⟩).uvs p0
  let desired := x.uvs p0
  let shift ← normalizeShift env size (desired.1 - actual.1, desired.2 - actual.2)
  .ok ⟨shift, r.1, (r.2.1, r.2.2)⟩

/-- A side to be converted: its plane, the computed texture vectors, its points, and the size of its texture if it can be loaded. -/
structure Side (K : Type) where
  plane : Plane K
  vecs : Tex K
  p0 : Vec K
  p1 : Vec K
  p2 : Vec K
  size : Option (BitVec 32 × BitVec 32)

/-- `brush_side_t::convert_to` (common/mapfile.cc:910-961); `game` says that there is a game, without which no texture is loaded.
`TexDef_BSPToValve` (common/mapfile.cc:851-878) does not set `rotate`. `TexDef_BSPToBrushPrimitives` is common/mapfile.cc:884-907. -/
def convertDef (env : TexDef.Env K) (eps : K) (junk : Vec K) (game : Bool) (st : Style) (s : Side K) (d : Def K) : Outcome (Def K) :=
  if d.has st then .ok d
  else
    match st with
    | .quaked => do
      let e ← toQuakeEd env junk s.plane.normal (if game then s.size else none) s.vecs s.p0 s.p1 s.p2
      .ok (.quaked e.shift e.rotate e.scale)
    | .valve =>
      let r := toValve env s.vecs
      .ok (.valve (triple r.1.axis, r.1.shift) (triple r.2.axis, r.2.shift) none (r.1.scale, r.2.scale))
    | .prim =>
      if game = false then .error
      else
        match s.size with
        | none => .error
        | some z =>
          let m := toPrimitives env eps s.plane ((z.1.toNat : Nat) : K) ((z.2.toNat : Nat) : K) s.vecs
          .ok (.prim (triple m.s) (triple m.t))
    | .etp => .error

end

/-- All of a list, or the first that fails. -/
def mapAll {α β : Type} (f : α → Outcome β) : List α → Outcome (List β)
  | [] => .ok []
  | a :: as => do
    let b ← f a
    let bs ← mapAll f as
    .ok (b :: bs)

/-- The conversion of a face, of which only the definition changes. -/
def convertFace (conv : Face N → Outcome (Def N)) (f : Face N) : Outcome (Face N) := do
  let d ← conv f
  .ok { f with tdef := d }

/-- `brush_t::convert_to` (common/mapfile.cc:1034-1045). -/
def convertBrush (conv : Face N → Outcome (Def N)) (st : Style) (b : Brush N) : Outcome (Brush N) := do
  let fs ← mapAll (convertFace conv) b.faces
  .ok ⟨decide (st = .prim), fs⟩

def convertEnt (conv : Face N → Outcome (Def N)) (st : Style) (e : Ent N) : Outcome (Ent N) := do
  let bs ← mapAll (convertBrush conv st) e.brushes
  .ok { e with brushes := bs }

/-- `map_file_t::convert_to` (common/mapfile.cc:1195-1202). -/
def convertMap (conv : Face N → Outcome (Def N)) (st : Style) (es : List (Ent N)) : Outcome (List (Ent N)) :=
  mapAll (convertEnt conv st) es

/-! ### Commands -/

/-- `--strip_extended_info` (maputil/maputil.cc:991-997). -/
def strip (es : List (Ent N)) : List (Ent N) :=
  es.map fun e => { e with brushes := e.brushes.map fun b => { b with faces := b.faces.map fun f => { f with info := none } } }

/-- What the tool has: the map, the chosen game, and the files that are written with their texts, first to last. -/
structure St (N : Type) where
  map : List (Ent N)
  game : Option Str
  saved : List (Str × Str)

/-- What the commands depend on. -/
structure Cmds (N : Type) where
  /-- `--query` and `--script`. -/
  lua : Str → List (Ent N) → Outcome (List (Ent N))
  script : Str → List (Ent N) → Outcome (List (Ent N))
  /-- The name of a game. -/
  known : Str → Bool
  /-- What a face is converted to, with the chosen game. -/
  conv : Option Str → Style → Face N → Outcome (Def N)

/-- The commands. -/
inductive Cmd where
  | query
  | script
  | game
  | save
  | strip
  | convert
  deriving DecidableEq

/-- Text to bytes. -/
def txt (s : String) : Str := s.toList.map fun c => c.toNat.toUInt8

/-- `strcmp` with the names of the commands (maputil/maputil.cc:947-998). -/
def cmdOf (a : Str) : Option Cmd :=
  if a = txt "--query" then some .query
  else if a = txt "--script" then some .script
  else if a = txt "--game" then some .game
  else if a = txt "--save" then some .save
  else if a = txt "--strip_extended_info" then some .strip
  else if a = txt "--convert" then some .convert
  else none

/-- The styles (maputil/maputil.cc:1005-1015). -/
def styleOf (a : Str) : Option Style :=
  if a = txt "quake" then some .quaked
  else if a = txt "valve" then some .valve
  else if a = txt "etp" then some .etp
  else if a = txt "bp" then some .prim
  else none

/-- A command with its argument (maputil/maputil.cc:947-1018). -/
def exec (env : Env N) (c : Cmds N) (s : St N) (cmd : Cmd) (arg : Str) : Outcome (St N) :=
  match cmd with
  | .query => do
    let m ← c.lua arg s.map
    .ok { s with map := m }
  | .script => do
    let m ← c.script arg s.map
    .ok { s with map := m }
  | .game => if c.known arg then .ok { s with game := some arg } else .error
  | .save => do
    let t ← save env s.map
    .ok { s with saved := s.saved ++ [(arg, t)] }
  | .strip => .ok { s with map := strip s.map }
  | .convert =>
    match styleOf arg with
    | none => .error
    | some st => do
      let m ← convertMap (c.conv s.game st) st s.map
      .ok { s with map := m }

/-- The loop of `maputil_main` (maputil/maputil.cc:943-1019): `argv`, `i` and the state. `argv[i]` behind the end is undefined. -/
def loop (env : Env N) (c : Cmds N) (argv : List Str) : Nat → Nat → St N → Outcome (St N)
  | 0, _, _ => .ub
  | k + 1, i, s =>
    if ¬ i + 1 < argv.length then .ok s
    else
      match argv[i]? with
      | none => .ub
      | some a =>
        match cmdOf a with
        | none => loop env c argv k (i + 1) s
        | some .strip => do
          let s' ← exec env c s .strip []
          loop env c argv k (i + 1) s'
        | some cmd =>
          match argv[i + 1]? with
          | none => .ub
          | some arg => do
            let s' ← exec env c s cmd arg
            loop env c argv k (i + 2) s'

/-- `maputil_main` (maputil/maputil.cc:922-1024) for a map file with this text; `argv[0]` is the tool and `argv[1]` the file. -/
def run (env : Env N) (c : Cmds N) (argv : List Str) (text : Str) : Outcome (St N) := do
  let m ← load env text
  loop env c argv (argv.length + 1) 2 ⟨m, none, []⟩

end Verif.MapUtil
