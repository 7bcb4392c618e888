import Verif.Parser.Model
import Verif.EntData.Dict

/-!
Model of the files with lights of textures: `ParseLightsFile` (light/entities.cc:1458-1494) for files other than `.ent`, and the
files that are read (light/light.cc:439-443, 1351-1354).

Simplifications: what `std::stod` and `fmt::format` do is given; an exception of `std::stod` ends the program (`.error`). As
everywhere, the parser for an empty line is that of an empty string, though `front()` of an empty view is undefined.
-/

namespace Verif.SurfLights

open Verif.Parser (State parseToken ofString)
open Verif.EntData (Str Dict)

/-- Numbers in texts: `none` is an exception. -/
structure Numbers (F : Type) where
  stod : Str → Option F
  format : F → F → F → Str

variable {F : Type}

/-- `_surface`. -/
def keySurface : Str := [95, 115, 117, 114, 102, 97, 99, 101]
/-- `_color`. -/
def keyColor : Str := [95, 99, 111, 108, 111, 114]
/-- `light`. -/
def keyLight : Str := [108, 105, 103, 104, 116]

/-- `parser.parse_token(); std::stod(parser.token)` (light/entities.cc:1481-1486). -/
def number (env : Numbers F) (s : State) : Outcome (F × State) :=
  parseToken 1 {} false s >>= fun r =>
    match env.stod r.2.token with
    | none => .error
    | some x => .ok (x, r.2)

/-- One line (light/entities.cc:1474-1490). -/
def radLine (env : Numbers F) (line : Str) : Outcome (Option Dict) :=
  parseToken 1 {} false (ofString line) >>= fun r =>
    if r.1 = false then .ok none
    else
      number env r.2 >>= fun x => number env x.2 >>= fun y => number env y.2 >>= fun z =>
        parseToken 1 {} false z.2 >>= fun l =>
          .ok (some (EntData.set (EntData.set (EntData.set [] keySurface r.2.token) keyColor (env.format x.1 y.1 z.1))
            keyLight l.2.token))

/-- The lines that `std::getline` gives until the end of the file (light/entities.cc:1470-1472). -/
def linesOf : Str → List Str
  | [] => [[]]
  | b :: bs =>
    if b = 10 then [] :: linesOf bs
    else
      match linesOf bs with
      | [] => [[b]]
      | l :: ls => (b :: l) :: ls

/-- The loop over the lines (light/entities.cc:1470-1491); the lights that are there already come first. -/
def radLines (env : Numbers F) : List Str → List Dict → Outcome (List Dict)
  | [], acc => .ok acc
  | l :: ls, acc => radLine env l >>= fun d => radLines env ls (acc ++ d.toList)

/-- `ParseLightsFile` (light/entities.cc:1458-1494); `none`: the file cannot be opened. -/
def radFile (env : Numbers F) (text : Option Str) (acc : List Dict) : Outcome (Bool × List Dict) :=
  match text with
  | none => .ok (false, acc)
  | some t => radLines env (linesOf t) acc >>= fun a => .ok (true, a)

/-- The files that are read (light/light.cc:1351-1354, then 439-443): `lights.rad` unless that is the one of the map, the file of
the map, and one of `-radlights`: the beginning of an unordered set (include/common/settings.hh:428), so if there are several files,
which one it is is not specified. -/
def radFiles (env : Numbers F) (files : Str → Option Str) (generic ofMap : Str) (option : Option Str) : Outcome (List Dict) :=
  (if ofMap ≠ generic then radFile env (files generic) [] else .ok (true, [])) >>= fun a =>
    radFile env (files ofMap) a.2 >>= fun b =>
      match option with
      | none => .ok b.2
      | some o => radFile env (files o) b.2 >>= fun c => .ok c.2

end Verif.SurfLights
