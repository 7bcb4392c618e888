import Verif.Common.Outcome
import Verif.Cmdlib.Model

/-!
Model of the list of textures that qbsp collects for Quake, Hexen 2 and Half-Life (qbsp/map.cc:389-456) and of the
frames that are added from the texture files (qbsp/qbsp.cc:1595-1616).

Simplification: `map.miptex` is the list of the names, its other members are not used for these games.
-/

namespace Verif.Miptex

open Verif.Cmdlib (Str cstr iequalC)

/-- The name without leading path, `strrchr(name, '/')` (qbsp/map.cc:436-439). -/
def baseName (name : Str) : Str := (name.reverse.takeWhile (· ≠ 47)).reverse

/-- The number of the frame and the character of frame 0 (qbsp/map.cc:394-408); `c` is `name[1]`, which is 0 for the name
`+`. `none`: `FError`. A byte from 128 on is a negative `char`. -/
def frameOf (c : UInt8) : Option (Nat × UInt8) :=
  let u := if 97 ≤ c ∧ c ≤ 106 then c - 32 else c
  if 48 ≤ u ∧ u ≤ 57 then some ((u - 48).toNat, 48)
  else if 65 ≤ u ∧ u ≤ 74 then some ((u - 65).toNat, 65)
  else if u ≤ 9 then some (u.toNat, 48)
  else none

/-- One round of the loop over the frames (qbsp/map.cc:416-425); `framename` has room for 15 characters. -/
def addFrame (name : Str) (base : UInt8) (tbl : List Str) (i : Nat) : List Str :=
  let f := (name.take 15).set 1 (base + UInt8.ofNat i)
  if tbl.any (iequalC f) then tbl else tbl ++ [f]

/-- `AddAnimTex` (qbsp/map.cc:389-427). -/
def addAnimTex (name : Str) (tbl : List Str) : Outcome (List Str) :=
  match frameOf (name.getD 1 0) with
  | none => .error
  | some (n, base) => .ok ((List.range n).foldl (addFrame name base) tbl)

/-- `FindMiptex` for a game other than Quake 2 (qbsp/map.cc:429-456, 523): the number and the list. -/
def findMiptex (request : Str) (tbl : List Str) : Outcome (Nat × List Str) :=
  let name := baseName (cstr request)
  match tbl.findIdx? (iequalC name) with
  | some i => .ok (i, tbl)
  | none =>
    if name.head? = some 43 then addAnimTex name (tbl ++ [name]) >>= fun t => .ok (tbl.length, t)
    else .ok (tbl.length, tbl ++ [name])

/-- The textures of all faces, one after the other (qbsp/map.cc:1860). -/
def findAll : List Str → List Str → Outcome (List Str)
  | [], tbl => .ok tbl
  | n :: ns, tbl => findMiptex n tbl >>= fun r => findAll ns r.2

/-- The characters of the frames (qbsp/qbsp.cc:1609-1610). -/
def frameChar (j : Nat) : UInt8 := if j < 10 then 48 + UInt8.ofNat j else 97 + UInt8.ofNat (j - 10)

/-- The frames of one texture (qbsp/qbsp.cc:1608-1614); `there` is `fs::where`. Writing the character behind the end of the
name `+` is undefined. -/
def framesOf (there : Str → Bool) (name : Str) : List Nat → List Str → Outcome (List Str)
  | [], tbl => .ok tbl
  | j :: js, tbl =>
    if name.length < 2 then .ub
    else if there (name.set 1 (frameChar j)) then
      findMiptex (name.set 1 (frameChar j)) tbl >>= fun r => framesOf there name js r.2
    else framesOf there name js tbl

/-- The textures with frames (qbsp/qbsp.cc:1602-1604). -/
def hasFrames (halfLife : Bool) (name : Str) : Bool := name.head? = some 43 ∨ (halfLife = true ∧ name.head? = some 45)

/-- The loop of `AddAnimationFrames` (qbsp/qbsp.cc:1599-1615) over the textures that are there before it. -/
def framesLoop (halfLife : Bool) (there : Str → Bool) : List Str → List Str → Outcome (List Str)
  | [], tbl => .ok tbl
  | n :: ns, tbl =>
    if hasFrames halfLife n then
      framesOf there n (List.range 20) tbl >>= fun t => framesLoop halfLife there ns t
    else framesLoop halfLife there ns tbl

/-- `AddAnimationFrames` (qbsp/qbsp.cc:1595-1618). -/
def addAnimationFrames (halfLife : Bool) (there : Str → Bool) (tbl : List Str) : Outcome (List Str) :=
  framesLoop halfLife there tbl tbl

end Verif.Miptex
