import Verif.EntData.Model

/-!
Model of `-aliasdef`: the files with aliases of classnames (qbsp/qbsp.cc:651-678, 773-775) and how an entity of a map uses them
(qbsp/map.cc:2777-2786).

Simplification: the table is a function of classnames.
-/

namespace Verif.Alias

open Verif.Parser (State parseToken ofFile atEnd)
open Verif.EntData (Str Dict)

/-- `loaded_entity_defs`. -/
abbrev Table := Str → Option Dict

/-- `loaded_entity_defs[classname] = d` (qbsp/qbsp.cc:676). -/
def Table.put (m : Table) (k : Str) (d : Dict) : Table := fun k' => if k' = k then some d else m k'

/-- The loop (qbsp/qbsp.cc:660-677), with a bound for the rounds: each one moves the parser forward. The entity is read where it is
made from the parser (qbsp/qbsp.cc:676, common/entdata.cc:36-39). 123 is `{`. -/
def loadLoop : Nat → State → Table → Outcome Table
  | 0, _, _ => .error
  | n + 1, s, m =>
    parseToken 0 {} false s >>= fun a =>
      if a.1 = false ∨ atEnd 0 a.2.rest = true then .ok m
      else
        parseToken 0 {} true a.2 >>= fun b =>
          if b.1 = false then .error
          else if b.2.token ≠ [123] then .error
          else EntData.parseEntity 0 b.2 >>= fun e => loadLoop n e.2 (m.put a.2.token e.1)

/-- `load_entity_def` (qbsp/qbsp.cc:651-678); `none`: there is no such file. -/
def loadFile (file : Option Str) (m : Table) : Outcome Table :=
  match file with
  | none => .error
  | some data => loadLoop (data.length + 1) (ofFile data) m

/-- The loop over the files (qbsp/qbsp.cc:773-775). The names of the files are an unordered set (include/common/settings.hh:428), so the
list here is in any order. -/
def loadFiles : List (Option Str) → Table → Outcome Table
  | [], m => .ok m
  | f :: fs, m => loadFile f m >>= fun m => loadFiles fs m

/-- `classname`. -/
def keyClass : Str := [99, 108, 97, 115, 115, 110, 97, 109, 101]

/-- The loop over the pairs of the alias (qbsp/map.cc:2781-2785). -/
def addPairs : Dict → Dict → Dict
  | [], e => e
  | (k, v) :: a, e => addPairs a (if k = keyClass ∨ EntData.has e k = false then EntData.set e k v else e)

/-- The end of `ParseEntity` (qbsp/map.cc:2777-2786). -/
def replaceAlias (m : Table) (e : Dict) : Dict :=
  match m (EntData.get e keyClass) with
  | none => e
  | some a => addPairs a e

end Verif.Alias
