import Verif.Common.Outcome

/-!
Model of the entities that `qbsp` writes: of a full compile (qbsp/map.cc:2931-2987, 3175-3333, qbsp/qbsp.cc:986-1085, qbsp/map.cc:3670-3703)
and of `-onlyents` (qbsp/qbsp.cc:1284-1337).

Simplifications: strings are lists of characters. Of a brush only matters whether it is an origin brush, and then the text of its centre,
and whether the texture of its first side ends in `trigger`. Texts of vectors are made by parameters. Regions, area portals (Quake II, which
`-onlyents` refuses) and the geometry are left out; a failed assertion is `.error`.
-/

namespace Verif.OnlyEnts

abbrev Str := List Char
abbrev Dict := List (Str × Str)

/-- `entdict_t::find` (common/entdata.cc:116-143). -/
def find (d : Dict) (key : Str) : Option Str := (d.find? (·.1 = key)).map Prod.snd

/-- `entdict_t::get` (common/entdata.cc:41-49). -/
def get (d : Dict) (key : Str) : Str := (find d key).getD []

/-- `entdict_t::set` (common/entdata.cc:86-97). -/
def set : Dict → Str → Str → Dict
  | [], key, value => [(key, value)]
  | (k, v) :: d, key, value => if key = k then (k, value) :: d else (k, v) :: set d key value

structure Brush where
  origin : Option Str
  trigger : Bool
  deriving DecidableEq

structure Entity where
  keys : Dict
  brushes : List Brush
  deriving DecidableEq

/-- What is not modelled: the brushes of an external map (`LoadExternalMap`, qbsp/map.cc:2888-2929, which fails if there is none), the text
of a vector that was read from a text (`FixRotateOrigin`), the text of a scaled vector, if it is one and there is a scale (`-scale`), the
number given with `-lmscale`, `-notriggermodels`, and the texts of the bounds of brushes. -/
structure Env where
  external : Str → List Brush
  reformat : Str → Str
  scaled : Option (Str → Option Str)
  lmscale : Option Str
  notrigger : Bool
  box : List Brush → Str × Str

/-- Equal but for the case (`Q_strcasecmp`). -/
def ieq (a b : Str) : Bool := a.map Char.toLower = b.map Char.toLower

def kClass : Str := "classname".toList
def kModel : Str := "model".toList
def kOrigin : Str := "origin".toList
def kNewClass : Str := "_external_map_classname".toList
def external : Str := "misc_external_map".toList

/-- `IsWorldBrushEntity` and `IsNonRemoveWorldBrushEntity` (qbsp/map.cc:3027-3064). -/
def removed (c : Str) : Bool :=
  ieq c "func_detail".toList || ieq c "func_group".toList || ieq c "func_detail_illusionary".toList || ieq c "func_detail_wall".toList
    || ieq c "func_detail_fence".toList || ieq c "func_illusionary_visblocker".toList
def merged (c : Str) : Bool := removed c || ieq c "func_areaportal".toList

/-- The text of the key `model` (qbsp/qbsp.cc:1016, 1324). -/
def star (n : Nat) : Str := '*' :: Nat.toDigits 10 n

/-- `FixRotateOrigin` (qbsp/brush.cc:220-257), among all entities. -/
def fixRotate (env : Env) (all : List Entity) (e : Entity) : Entity :=
  let search := get e.keys "target".toList
  let target := if search = [] then none else all.find? fun x => ieq search (get x.keys "targetname".toList)
  { e with keys := set e.keys kOrigin (env.reformat (match target with
      | some t => get t.keys kOrigin
      | none => [])) }

/-! ### A full compile -/

/-- `ProcessExternalMapEntity` (qbsp/map.cc:2931-2987). That the new class is not `misc_external_map` again is asserted later, in
`IsWorldBrushEntity`. -/
def processExternal (env : Env) (e : Entity) : Outcome Entity :=
  if ieq (get e.keys kClass) external = false then .ok e
  else if get e.keys "_external_map".toList = [] then .error
  else if get e.keys kNewClass = [] then .error
  else if e.brushes ≠ [] then .error
  else if env.external (get e.keys "_external_map".toList) = [] then .error
  else if ieq (get e.keys kNewClass) external = true then .error
  else .ok ⟨set (set e.keys kClass (get e.keys kNewClass)) kOrigin "0 0 0".toList, env.external (get e.keys "_external_map".toList)⟩

def externals (env : Env) : List Entity → Outcome (List Entity)
  | [] => .ok []
  | e :: t => processExternal env e >>= fun e' => externals env t >>= fun t' => .ok (e' :: t')

/-- The origin brushes of an entity (qbsp/map.cc:3198-3242): they are removed, and the first gives the origin, if it has none. -/
def originKeys (world : Bool) : Dict → List Brush → Dict
  | d, [] => d
  | d, b :: t =>
    match b.origin with
    | none => originKeys world d t
    | some c => originKeys world (if world then d else if (find d kOrigin).isSome then d else set d kOrigin c) t

/-- The rotation of an entity without an origin brush (qbsp/map.cc:3268-3274). -/
def rotated (env : Env) (hasOrigin : Bool) (before after : List Entity) (e : Entity) : Entity :=
  if hasOrigin = false ∧ ieq ((get e.keys kClass).take 7) "rotate_".toList = true then fixRotate env (before ++ e :: after) e else e

/-- The scale of the origin (qbsp/map.cc:3304-3323). -/
def rescaled (env : Env) (e : Entity) : Entity :=
  match env.scaled with
  | none => e
  | some f =>
    match find e.keys kOrigin with
    | none => e
    | some o => match f o with
      | none => e
      | some o' => { e with keys := set e.keys kOrigin o' }

/-- One round of the loop of `ProcessMapBrushes` (qbsp/map.cc:3175-3333). -/
def processEntity (env : Env) (world : Bool) (before after : List Entity) (e : Entity) : Entity :=
  rescaled env (rotated env (e.brushes.any (·.origin ≠ none)) before after
    ⟨originKeys world e.keys e.brushes, e.brushes.filter (·.origin = none)⟩)

def processAll (env : Env) (before : List Entity) : List Entity → List Entity
  | [] => before
  | e :: t => processAll env (before ++ [processEntity env before.isEmpty before t e]) t

/-- `IsTrigger` (qbsp/qbsp.cc:881-896), with the option. -/
def discarded (env : Env) (e : Entity) : Bool := env.notrigger && (e.brushes.head?.any (·.trigger))

/-- The beginning of `ProcessEntity` for entities that are not the world (qbsp/qbsp.cc:986-1080), for the first hull; with the number of
models so far. Later hulls set the same keys again. -/
def number (env : Env) (n : Nat) : List Entity → List Entity
  | [] => []
  | e :: t =>
    if e.brushes = [] then e :: number env n t
    else if merged (get e.keys kClass) = true then e :: number env n t
    else
      let lm := fun (d : Dict) => match env.lmscale with
        | some v => if (find d "_lmscale".toList).isSome then d else set d "_lmscale".toList v
        | none => d
      if discarded env e = true then
        { e with keys := set (set (lm e.keys) "mins".toList (env.box e.brushes).1) "maxs".toList (env.box e.brushes).2 } :: number env n t
      else { e with keys := lm (set e.keys kModel (star n)) } :: number env (n + 1) t

/-- A full compile; the first entity is the world, which is model 0. -/
def full (env : Env) (es : List Entity) : Outcome (List Entity) :=
  externals env es >>= fun es =>
    match processAll env [] es with
    | [] => .ok []
    | w :: t =>
      let lm := match env.lmscale with
        | some v => if (find w.keys "_lmscale".toList).isSome then w.keys else set w.keys "_lmscale".toList v
        | none => w.keys
      .ok ({ w with keys := lm } :: number env 1 t)

/-! ### `-onlyents` -/

/-- One round of the loop of `UpdateEntLump` (qbsp/qbsp.cc:1295-1333); the test for rotating entities is by case. -/
def onlyEntity (env : Env) (n : Nat) (before after : List Entity) (e : Entity) : Outcome (Entity × Nat) :=
  let ext := ieq (get e.keys kClass) external
  let e1 := if ext then { e with keys := set (set e.keys kClass (get e.keys kNewClass)) kOrigin "0 0 0".toList } else e
  if e1.brushes = [] ∧ ext = false then .ok (e1, n)
  else if ieq (get e1.keys kClass) external = true then .error
  else if merged (get e1.keys kClass) = true then .ok (e1, n)
  else
    let e2 := { e1 with keys := set e1.keys kModel (star n) }
    .ok (if (get e2.keys kClass).take 7 = "rotate_".toList then fixRotate env (before ++ e2 :: after) e2 else e2, n + 1)

def onlyAll (env : Env) (n : Nat) (before : List Entity) : List Entity → Outcome (List Entity)
  | [] => .ok before
  | e :: t => onlyEntity env n before t e >>= fun r => onlyAll env r.2 (before ++ [r.1]) t

/-- `UpdateEntLump`. -/
def only (env : Env) : List Entity → Outcome (List Entity)
  | [] => .ok []
  | w :: t => onlyAll env 1 [w] t

/-! ### Writing -/

/-- `WriteEntitiesToString` (qbsp/map.cc:3670-3703), as lists of pairs. -/
def written (es : List Entity) : List Dict :=
  (es.filter fun e => decide (e.keys ≠ []) && !removed (get e.keys kClass)).map fun e => e.keys.filter fun kv => kv.1.take 4 ≠ "_tb_".toList

end Verif.OnlyEnts
