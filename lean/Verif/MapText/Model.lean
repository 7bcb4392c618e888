import Verif.EntData.Lemmas

/-!
Model of the text of map files: how qbsp reads it (qbsp/map.cc:843-862, 895-922, 1620-1763, 1982-2002,
2532-2724, 2726-2778, 3391-3414), and how the option `-convert` writes it (qbsp/map.cc:3498-3661).

Simplifications: numbers are of some type with two functions to and from text, of which nothing is supposed here. `keep` says
whether a face has a normal and is not a duplicate. The file of texture replacements and the one of entity aliases are empty.
What the code makes of a texture definition is in `TexDef/Model`, of surface flags in `TexFlags/Model`; regions give walls,
which are left out, and so are hints, warnings and the field `origin` of an entity. A file is a list of bytes without a NUL
behind it. Loops have a number of rounds, which is one more than the bytes that are left; each round reads a byte at least.
-/

namespace Verif.MapText

open Verif.Parser (State parseToken Flags)
open Verif.EntData (Str Dict isSpace trimFront writePair)

/-- Three numbers. -/
abbrev Pt (N : Type) := N × N × N

/-- A texture definition as in the text. -/
inductive Def (N : Type) where
  /-- QuakeEd; with the comment `//TX1` or `//TX2` QuArK. -/
  | quaked (shift : N × N) (rotate : N) (scale : N × N) (quark : Nat)
  /-- Valve 220: axis and shift of s and of t. The angle is read and not used. -/
  | valve (s t : Pt N × N) (scale : N × N)
  /-- Brush primitives. -/
  | prim (s t : Pt N)
  deriving DecidableEq

/-- `mapface_t`, as far as it is read from the text; `info` is `raw_info`. -/
structure Face (N : Type) where
  p0 : Pt N
  p1 : Pt N
  p2 : Pt N
  tex : Str
  tdef : Def N
  info : Option (Int × Int × Int)
  deriving DecidableEq

/-- `planepts`. -/
def Face.pts {N : Type} (f : Face N) : Pt N × Pt N × Pt N := (f.p0, f.p1, f.p2)

/-- What the code depends on. -/
structure Env (N : Type) where
  /-- `fprintDoubleAndSpc` (qbsp/map.cc:3498-3509), without the space. -/
  shown : N → Str
  /-- `std::stod`. -/
  read : Str → Outcome N
  /-- `operator<<` for integers. -/
  shownInt : Int → Str
  /-- `std::stoul`, converted to 32 bits. -/
  readU : Str → Outcome Int
  /-- `std::stoi`. -/
  readI : Str → Outcome Int
  /-- `atoi`. -/
  atoi : Str → Int
  /-- How a key is trimmed; in the code `trimKey`. -/
  key : Str → Outcome Str
  /-- A face with these points is kept, given the points of the faces before (qbsp/map.cc:1995-2002, 2571-2594): the plane
  has a normal, and is not a duplicate. -/
  keep : List (Pt N × Pt N × Pt N) → Pt N × Pt N × Pt N → Bool

variable {N : Type}

/-- A token of the same line. The result is ignored, as there is one or an error. -/
def word (p : State) : Outcome State := do
  let r ← parseToken 0 { sameline := true } false p
  .ok r.2

/-- A number of the same line. -/
def num (env : Env N) (p : State) : Outcome (N × State) := do
  let s ← word p
  let x ← env.read s.token
  .ok (x, s)

/-- A token that must be this one. -/
def expect (c : UInt8) (p : State) : Outcome State := do
  let s ← word p
  if s.token = [c] then .ok s else .error

/-- Three numbers. -/
def three (env : Env N) (p : State) : Outcome (Pt N × State) := do
  let a ← num env p
  let b ← num env a.2
  let c ← num env b.2
  .ok ((a.1, b.1, c.1), c.2)

/-- A point: the parser is at its parenthesis (qbsp/map.cc:1627-1637). 40 and 41 are `(` and `)`. -/
def point (env : Env N) (p : State) : Outcome (Pt N × State) :=
  if p.token ≠ [40] then .error
  else do
    let v ← three env p
    let s ← expect 41 v.2
    .ok (v.1, s)

/-- `ParsePlaneDef` (qbsp/map.cc:1620-1643). -/
def planeDef (env : Env N) (p : State) : Outcome ((Pt N × Pt N × Pt N) × State) := do
  let a ← point env p
  let r ← parseToken 0 {} false a.2
  let b ← point env r.2
  let r ← parseToken 0 {} false b.2
  let c ← point env r.2
  .ok ((a.1, b.1, c.1), c.2)

/-- An axis of Valve's editor (qbsp/map.cc:1650-1661). 91 and 93 are `[` and `]`. -/
def axis (env : Env N) (p : State) : Outcome ((Pt N × N) × State) := do
  let s ← expect 91 p
  let v ← three env s
  let d ← num env v.2
  let s ← expect 93 d.2
  .ok ((v.1, d.1), s)

/-- `ParseValve220TX` (qbsp/map.cc:1645-1673). -/
def valveTX (env : Env N) (p : State) : Outcome (Def N × State) := do
  let a ← axis env p
  let b ← axis env a.2
  let rot ← num env b.2
  let x ← num env rot.2
  let y ← num env x.2
  .ok (.valve a.1 b.1 (x.1, y.1), y.2)

/-- A row of a brush primitive (qbsp/map.cc:1683-1694). -/
def row (env : Env N) (p : State) : Outcome (Pt N × State) := do
  let s ← expect 40 p
  let v ← three env s
  let s ← expect 41 v.2
  .ok (v.1, s)

/-- `ParseBrushPrimTX` (qbsp/map.cc:1675-1704). -/
def primTX (env : Env N) (p : State) : Outcome (Def N × State) := do
  let s ← expect 40 p
  let a ← row env s
  let b ← row env a.2
  let s ← expect 41 b.2
  .ok (.prim a.1 b.1, s)

/-- The comments of QuArK: `//TX1` and `//TX2` (qbsp/map.cc:900-905). -/
def quarkOf (t : Str) : Nat :=
  if t.take 4 = [47, 47, 84, 88] then
    if t[4]? = some 49 then 1 else if t[4]? = some 50 then 2 else 0
  else 0

/-- `ParseExtendedTX` (qbsp/map.cc:895-922). -/
def extendedTX (env : Env N) (p : State) : Outcome ((Nat × Option (Int × Int × Int)) × State) := do
  let c ← parseToken 0 { comment := true, optional := true } false p
  if c.1 then .ok ((quarkOf c.2.token, none), c.2)
  else do
    let a ← parseToken 0 { optional := true } false c.2
    if a.1 then do
      let n ← env.readU a.2.token
      let b ← parseToken 0 { optional := true } false a.2
      let f ← (if b.1 then env.readI b.2.token else .ok 0)
      let d ← parseToken 0 { optional := true } false b.2
      let v ← (if d.1 then env.readI d.2.token else .ok 0)
      .ok ((0, some (n, f, v)), d.2)
    else .ok ((0, none), a.2)

/-- The part of `ParseTextureDef` that reads (qbsp/map.cc:1716-1763); `bp` for brush primitives. -/
def textureDef (env : Env N) (bp : Bool) (p : State) : Outcome ((Str × Def N × Option (Int × Int × Int)) × State) :=
  if bp then do
    let m ← primTX env p
    let t ← word m.2
    let x ← extendedTX env t
    .ok ((t.token, m.1, x.1.2), x.2)
  else do
    let t ← word p
    let k ← parseToken 0 { sameline := true } true t
    if k.2.token = [91] then do
      let m ← valveTX env k.2
      let x ← extendedTX env m.2
      .ok ((t.token, m.1, x.1.2), x.2)
    else do
      let a ← num env k.2
      let b ← num env a.2
      let r ← num env b.2
      let c ← num env r.2
      let d ← num env c.2
      let x ← extendedTX env d.2
      .ok ((t.token, .quaked (a.1, b.1) r.1 (c.1, d.1) x.1.1, x.1.2), x.2)

/-- `ParseBrushFace` (qbsp/map.cc:1982-1997). -/
def parseFace (env : Env N) (bp : Bool) (p : State) : Outcome (Face N × State) := do
  let a ← planeDef env p
  let b ← textureDef env bp a.2
  .ok (⟨a.1.1, a.1.2.1, a.1.2.2, b.1.1, b.1.2.1, b.1.2.2⟩, b.2)

/-- The loop of `ParseBrush` (qbsp/map.cc:2560-2601). 125 is `}`. -/
def parseFaces (env : Env N) (bp : Bool) : Nat → List (Face N) → State → Outcome (List (Face N) × State)
  | 0, _, _ => .ub
  | k + 1, acc, p => do
    let r ← parseToken 0 {} false p
    if r.1 = false ∨ r.2.token = [125] then .ok (acc, r.2)
    else do
      let f ← parseFace env bp r.2
      parseFaces env bp k (if env.keep (acc.map Face.pts) f.1.pts then acc ++ [f.1] else acc) f.2

/-- `brushDef`. -/
def brushDef : Str := [98, 114, 117, 115, 104, 68, 101, 102]

/-- `region`. -/
def regionName : Str := [114, 101, 103, 105, 111, 110]

/-- `antiregion`. -/
def antiName : Str := [97, 110, 116, 105] ++ regionName

/-- `std::string::ends_with`. -/
def endsWith (t suffix : Str) : Bool := suffix.isSuffixOf t

/-- What a brush is for (qbsp/map.cc:2603-2623). -/
def isAnti (fs : List (Face N)) : Bool := !fs.isEmpty && fs.all fun f => endsWith f.tex antiName

def isRegion (fs : List (Face N)) : Bool :=
  match fs with
  | [] => false
  | f :: _ => !endsWith f.tex antiName && fs.all fun f => endsWith f.tex regionName

/-- The start of `ParseBrush` (qbsp/map.cc:2536-2556): whether it is a brush primitive. 123 is `{`. -/
def parseStart (p : State) : Outcome (Bool × State) := do
  let k ← parseToken 0 {} true p
  if k.1 = false then .error
  else if k.2.token = [40] ∨ k.2.token = [125] then .ok (false, k.2)
  else do
    let a ← parseToken 0 {} false k.2
    if a.2.token = brushDef then do
      let b ← parseToken 0 {} false a.2
      if b.1 = false ∨ b.2.token ≠ [123] then .error else .ok (true, b.2)
    else if a.2.token ≠ [123] then .error else .ok (true, a.2)

/-- The brace that ends a brush primitive (qbsp/map.cc:2712-2718). -/
def parseEnd (bp : Bool) (p : State) : Outcome State :=
  if bp then do
    let r ← parseToken 0 {} false p
    if r.1 = false ∨ r.2.token ≠ [125] then .error else .ok r.2
  else .ok p

/-- `ParseBrush` (qbsp/map.cc:2532-2724), from behind its brace: the faces of the brush, and whether `map.region` is set.
`world` says that the entity is the first one. A region is moved to `map.region`, which leaves a brush without faces. -/
def parseBrush (env : Env N) (world region : Bool) (p : State) : Outcome ((List (Face N) × Bool) × State) := do
  let st ← parseStart p
  let fs ← parseFaces env st.1 (st.2.rest.length + 1) [] st.2
  if isAnti fs.1 ∧ world = false then .error
  else if !isAnti fs.1 && isRegion fs.1 then
    if world = false ∨ region then .error else .ok (([], true), fs.2)
  else do
    let e ← parseEnd st.1 fs.2
    .ok ((fs.1, region), e)

/-- `while (std::isspace(key.back())) key.erase(key.end() - 1);` (qbsp/map.cc:851-853). -/
def trimEnd : Nat → Str → Outcome Str
  | 0, _ => .ub
  | k + 1, t =>
    match t.getLast? with
    | none => .ub
    | some b => do
      if ← isSpace b then trimEnd k t.dropLast else .ok t

/-- `// trim whitespace from start/end` (qbsp/map.cc:847-853). -/
def trimKey (t : Str) : Outcome Str := do
  let k ← trimFront t
  trimEnd (k.length + 1) k

/-- `ParseEpair` (qbsp/map.cc:843-862). -/
def parseEpair (env : Env N) (d : Dict) (p : State) : Outcome (Dict × State) := do
  let k ← env.key p.token
  let s ← word p
  .ok (EntData.set d k s.token, s)

/-- Skipping a brush (qbsp/map.cc:2760-2766). -/
def skipBrush : Nat → State → Outcome State
  | 0, _ => .ub
  | k + 1, p => do
    let r ← parseToken 0 {} false p
    if r.1 = false then .error
    else if r.2.token = [125] then .ok r.2
    else skipBrush k r.2

/-- `_omitbrushes`. -/
def omitKey : Str := [95, 111, 109, 105, 116, 98, 114, 117, 115, 104, 101, 115]

/-- `entity.epairs.get_int("_omitbrushes")` (common/entdata.cc:62-71). -/
def omitted (env : Env N) (d : Dict) : Bool :=
  let s := EntData.get d omitKey
  if s.isEmpty then false else decide (env.atoi s ≠ 0)

/-- An entity: its pairs and its brushes. -/
structure Ent (N : Type) where
  pairs : Dict
  brushes : List (List (Face N))
  deriving DecidableEq

/-- The loop of `ParseEntity` (qbsp/map.cc:2746-2775). `om` is `omit`, none before the first brush. -/
def parseBody (env : Env N) (world : Bool) : Nat → Bool → Option Bool → Ent N → State → Outcome ((Ent N × Bool) × State)
  | 0, _, _, _, _ => .ub
  | k + 1, region, om, e, p => do
    let r ← parseToken 0 {} false p
    if r.1 = false then .error
    else if r.2.token = [125] then .ok ((e, region), r.2)
    else if r.2.token = [123] then
      let o := om.getD (omitted env e.pairs)
      if o then do
        let s ← skipBrush (r.2.rest.length + 1) r.2
        parseBody env world k region (some o) e s
      else do
        let b ← parseBrush env world region r.2
        parseBody env world k b.1.2 (some o) (if b.1.1.isEmpty then e else { e with brushes := e.brushes ++ [b.1.1] }) b.2
    else do
      let d ← parseEpair env e.pairs r.2
      parseBody env world k region om { e with pairs := d.1 } d.2

/-- `ParseEntity` (qbsp/map.cc:2726-2778). -/
def parseEntity (env : Env N) (world region : Bool) (p : State) : Outcome (Option (Ent N × Bool) × State) := do
  let r ← parseToken 0 {} false p
  if r.1 = false then .ok (none, r.2)
  else if r.2.token ≠ [123] then .error
  else do
    let e ← parseBody env world (r.2.rest.length + 1) region none ⟨[], []⟩ r.2
    .ok (some e.1, e.2)

/-- The loop of `LoadMapFile` (qbsp/map.cc:3408-3414). -/
def parseEnts (env : Env N) : Nat → Bool → List (Ent N) → State → Outcome (List (Ent N))
  | 0, _, _, _ => .ub
  | k + 1, region, acc, p => do
    let r ← parseEntity env acc.isEmpty region p
    match r.1 with
    | none => .ok acc
    | some e => parseEnts env k e.2 (acc ++ [e.1]) r.2

/-- `LoadMapFile` (qbsp/map.cc:3391-3419). -/
def loadMap (env : Env N) (text : Str) : Outcome (List (Ent N)) :=
  parseEnts env (text.length + 1) false [] (Parser.ofFile text)

/-- A number and a space (qbsp/map.cc:3498-3509). -/
def wNum (env : Env N) (x : N) : Str := env.shown x ++ [32]

def wThree (env : Env N) (v : Pt N) : Str := wNum env v.1 ++ wNum env v.2.1 ++ wNum env v.2.2

/-- ` ( x y z ) ` (qbsp/map.cc:3518-3524). -/
def wPoint (env : Env N) (v : Pt N) : Str := [32, 40, 32] ++ wThree env v ++ [41, 32]

/-- The three integers (qbsp/map.cc:3539-3542). -/
def wInfo (env : Env N) (i : Int × Int × Int) : Str :=
  env.shownInt i.1 ++ [32] ++ env.shownInt i.2.1 ++ [32] ++ env.shownInt i.2.2

/-- The integers, or `d` if there are none. -/
def wOpt (env : Env N) (d : Str) : Option (Int × Int × Int) → Str
  | some i => wInfo env i
  | none => d

/-- The part of `ConvertMapFace` behind the points (qbsp/map.cc:3526-3599). -/
def wDef (env : Env N) (f : Face N) : Str :=
  match f.tdef with
  | .quaked sh r sc _ =>
    f.tex ++ [32] ++ wNum env sh.1 ++ wNum env sh.2 ++ wNum env r ++ wNum env sc.1 ++ wNum env sc.2 ++
      wOpt env [] f.info
  | .valve s t sc =>
    f.tex ++ [32, 91, 32] ++ wThree env s.1 ++ wNum env s.2 ++ [93, 32, 91, 32] ++ wThree env t.1 ++ wNum env t.2 ++ [93, 32, 48, 32] ++
      wNum env sc.1 ++ wNum env sc.2 ++ wOpt env [] f.info
  | .prim s t =>
    [40, 32, 40, 32] ++ wThree env s ++ [41, 32, 40, 32] ++ wThree env t ++ [41, 32, 41, 32] ++ f.tex ++ [32] ++
      wOpt env [48, 32, 48, 32, 48] f.info

/-- `ConvertMapFace` (qbsp/map.cc:3511-3602), for a face whose definition is already converted. -/
def wFace (env : Env N) (f : Face N) : Str := wPoint env f.p0 ++ wPoint env f.p1 ++ wPoint env f.p2 ++ wDef env f ++ [10]

/-- `ConvertMapBrush` (qbsp/map.cc:3604-3618). -/
def wBrush (env : Env N) (bp : Bool) (b : List (Face N)) : Str :=
  [123, 10] ++ (if bp then brushDef ++ [10, 123, 10] else []) ++ (b.map (wFace env)).flatten ++ (if bp then [125, 10] else []) ++ [125, 10]

/-- `ConvertEntity` (qbsp/map.cc:3620-3632). -/
def wEnt (env : Env N) (bp : Bool) (e : Ent N) : Str :=
  [123, 10] ++ (e.pairs.map writePair).flatten ++ (e.brushes.map (wBrush env bp)).flatten ++ [125, 10]

/-- `ConvertMapFile` (qbsp/map.cc:3634-3661). -/
def wMap (env : Env N) (bp : Bool) (es : List (Ent N)) : Str := (es.map (wEnt env bp)).flatten

end Verif.MapText
