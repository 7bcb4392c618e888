import Verif.Parser.Model

/-!
Model of `-texturedefs`: the files that replace textures (qbsp/qbsp.cc:604-649, 768-771) and how a face of a map uses them
(qbsp/map.cc:1766-1774).

Simplifications: `std::stoul` and `std::stoi` are given functions, with `none` for an exception, which ends the program; the table is a
function of names. `std::isspace` is that of the C locale.
-/

namespace Verif.TexRemap

open Verif.Parser (State parseToken ofFile Flags atEnd)

/-- A text. -/
abbrev Text := List UInt8

/-- Contents, flags and value: `extended_texinfo_t` without the animation. -/
structure Info where
  contents : Nat
  flags : Int
  value : Int
  deriving DecidableEq, Repr

/-- What a name is replaced by: the new name, and contents, flags and value if they are given (include/qbsp/qbsp.hh:245). -/
structure Def where
  to : Text
  info : Option Info
  deriving DecidableEq, Repr

/-- Numbers in texts. -/
structure Numbers where
  stoul : Text → Option Nat
  stoi : Text → Option Int

/-- `loaded_texture_defs`. -/
abbrev Table := Text → Option Def

/-- `loaded_texture_defs[from] = d` (qbsp/qbsp.cc:647). -/
def Table.put (m : Table) (k : Text) (d : Def) : Table := fun k' => if k' = k then some d else m k'

/-- `std::isspace`. -/
def isSpace (b : UInt8) : Bool := b = 32 || (9 ≤ b && b ≤ 13)

/-- The loop that cuts blanks off the reversed name (qbsp/qbsp.cc:629-631); the last character of an empty name is undefined. -/
def cutBlanks : Text → Outcome Text
  | [] => .ub
  | b :: bs => if isSpace b then cutBlanks bs else .ok (b :: bs)

/-- `PARSE_SAMELINE | PARSE_OPTIONAL`. -/
def optionalWord : Flags := { sameline := true, optional := true }

/-- A number that may be there (qbsp/qbsp.cc:638-644): what it is by default, if it is not. -/
def optionalInt (env : Numbers) (s : State) (default : Int) : Outcome (Int × State) :=
  parseToken 0 optionalWord false s >>= fun r =>
    if r.1 then
      match env.stoi r.2.token with
      | none => .error
      | some x => .ok (x, r.2)
    else .ok (default, r.2)

/-- Contents, flags and value (qbsp/qbsp.cc:633-645). -/
def readInfo (env : Numbers) (s : State) : Outcome (Option Info × State) :=
  parseToken 0 optionalWord false s >>= fun r =>
    if r.1 then
      match env.stoul r.2.token with
      | none => .error
      | some c => optionalInt env r.2 0 >>= fun f => optionalInt env f.2 0 >>= fun v => .ok (some ⟨c, f.1, v.1⟩, v.2)
    else .ok (none, r.2)

/-- The loop (qbsp/qbsp.cc:613-648), with a bound for the rounds: each one moves the parser forward. -/
def loadLoop (env : Numbers) : Nat → State → Table → Outcome Table
  | 0, _, _ => .error
  | n + 1, s, m =>
    parseToken 0 {} false s >>= fun a =>
      if a.1 = false ∨ atEnd 0 a.2.rest = true then .ok m
      else
        parseToken 0 { sameline := true } false a.2 >>= fun b =>
          if b.1 = false then .ok m
          else
            cutBlanks b.2.token.reverse >>= fun to =>
              readInfo env b.2 >>= fun i => loadLoop env n i.2 (m.put a.2.token ⟨to.reverse, i.1⟩)

/-- `load_texture_def` (qbsp/qbsp.cc:604-649); `none`: there is no such file. -/
def loadFile (env : Numbers) (file : Option Text) (m : Table) : Outcome Table :=
  match file with
  | none => .error
  | some data => loadLoop env (data.length + 1) (ofFile data) m

/-- The loop over the files (qbsp/qbsp.cc:768-771). The names of the files are an unordered set (include/common/settings.hh:428), so the
list here is in any order. -/
def loadFiles (env : Numbers) : List (Option Text) → Table → Outcome Table
  | [], m => .ok m
  | f :: fs, m => loadFile env f m >>= fun m => loadFiles env fs m

/-- The name of the texture of a face, and what the map gives for contents, flags and value (qbsp/map.cc:1766-1774). -/
def remap (m : Table) (name : Text) (info : Option Info) : Text × Option Info :=
  match m name with
  | none => (name, info)
  | some d => (d.to, match d.info with | some i => some i | none => info)

end Verif.TexRemap
