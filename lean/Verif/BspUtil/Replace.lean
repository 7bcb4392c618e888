import Verif.EntData.Model

/-!
Model of `bsputil --replace-entities` for a map source (bsputil/bsputil.cc:501-595, 1203-1268).

Simplifications: strings that are moved from are empty; error messages are not modelled.
-/

namespace Verif.BspUtil.Replace

open Parser (State parseToken ofFile)
open EntData (Str Dict trimFront writePair)

/-- `map_entity_t` (bsputil/bsputil.cc:502-507): keys and the text of the brushes. -/
structure MEnt where
  keys : Dict
  brushes : Str
  deriving DecidableEq

/-- White space at the end of a key (bsputil/bsputil.cc:522-524). -/
def trimEnd (k : Str) : Outcome Str := trimFront k.reverse >>= fun r => .ok r.reverse

/-- `ParseEpair` (bsputil/bsputil.cc:514-529), after the token of the key has been read. -/
def parseEpair (tail : Nat) (k : State) (d : Dict) : Outcome (Dict × State) :=
  trimFront k.token >>= fun key => trimEnd key >>= fun key =>
    parseToken tail { sameline := true } false k >>= fun v => .ok (EntData.set d key v.2.token, v.2)

/-- Skipping a brush (bsputil/bsputil.cc:551-556): all tokens up to the first `}`. -/
def skipBrush (tail : Nat) (p : State) : Outcome State :=
  match _h : parseToken tail {} false p with
  | .error => .error
  | .ub => .ub
  | .ok (false, _) => .error
  | .ok (true, q) => if q.token = [125] then .ok q else skipBrush tail q
  termination_by p.rest.length
  decreasing_by
    simp only [parseToken, Bool.false_eq_true, if_false] at _h
    exact Parser.scan_progress _h

/-- The text from one byte before `k` to `q` (bsputil/bsputil.cc:549, 558-559); `p` is where the token before `k` was looked for. -/
def rawText (p k q : State) : Str := (p.rest.drop (p.rest.length - k.rest.length - 1)).take (k.rest.length + 1 - q.rest.length)

theorem skipBrush_lt {tail : Nat} {p q : State} (h : skipBrush tail p = .ok q) : q.rest.length < p.rest.length := by
  fun_induction skipBrush tail p
  all_goals first
    | (simp at h; done)
    | skip
  · rename_i hk _
    simp only [Outcome.ok.injEq] at h
    rw [← h]
    simp only [parseToken, Bool.false_eq_true, if_false] at hk
    exact Parser.scan_progress hk
  · rename_i hk _ ih
    simp only [parseToken, Bool.false_eq_true, if_false] at hk
    have := Parser.scan_progress hk
    have := ih h
    omega

theorem parseEpair_le {tail : Nat} {k v : State} {d e : Dict} (h : parseEpair tail k d = .ok (e, v)) : v.rest.length ≤ k.rest.length := by
  simp only [parseEpair, Outcome.bind_eq_ok] at h
  obtain ⟨_, _, _, _, ⟨f, s⟩, hs, h⟩ := h
  simp only [Outcome.ok.injEq, Prod.mk.injEq] at h
  obtain ⟨-, rfl⟩ := h
  simp only [parseToken, Bool.false_eq_true, if_false] at hs
  cases f with
  | true => exact Nat.le_of_lt (Parser.scan_progress hs)
  | false =>
    obtain ⟨-, -, j, c, -, -, e, -⟩ := Parser.scan_spec hs
    rw [e]
    simp only [List.length_append]
    omega

/-- The loop of `ParseEntity` (bsputil/bsputil.cc:543-563). -/
def parseBody (tail : Nat) (p : State) (e : MEnt) : Outcome (MEnt × State) :=
  match _h : parseToken tail {} false p with
  | .error => .error
  | .ub => .ub
  | .ok (false, _) => .error
  | .ok (true, k) =>
    if k.token = [125] then .ok (e, k)
    else if k.token = [123] then
      match _h2 : skipBrush tail k with
      | .error => .error
      | .ub => .ub
      | .ok q => parseBody tail q { e with brushes := e.brushes ++ rawText p k q ++ [10] }
    else
      match _h3 : parseEpair tail k e.keys with
      | .error => .error
      | .ub => .ub
      | .ok (d, v) => parseBody tail v { e with keys := d }
  termination_by p.rest.length
  decreasing_by
    · simp only [parseToken, Bool.false_eq_true, if_false] at _h
      have := Parser.scan_progress _h
      have := skipBrush_lt _h2
      omega
    · simp only [parseToken, Bool.false_eq_true, if_false] at _h
      have := Parser.scan_progress _h
      have := parseEpair_le _h3
      omega

theorem parseBody_lt {tail : Nat} {p s : State} {e r : MEnt} (h : parseBody tail p e = .ok (r, s)) : s.rest.length < p.rest.length := by
  fun_induction parseBody tail p e
  all_goals first
    | (simp at h; done)
    | skip
  · rename_i hk _
    simp only [Outcome.ok.injEq, Prod.mk.injEq] at h
    rw [← h.2]
    simp only [parseToken, Bool.false_eq_true, if_false] at hk
    exact Parser.scan_progress hk
  · rename_i hk _ _ _ hq ih
    simp only [parseToken, Bool.false_eq_true, if_false] at hk
    have := Parser.scan_progress hk
    have := skipBrush_lt hq
    have := ih h
    omega
  · rename_i hk _ _ _ _ hq ih
    simp only [parseToken, Bool.false_eq_true, if_false] at hk
    have := Parser.scan_progress hk
    have := parseEpair_le hq
    have := ih h
    omega

/-- `ParseEntity` and the loop of `LoadMapOrEntFile` (bsputil/bsputil.cc:531-541, 582-592). -/
def loadFrom (tail : Nat) (p : State) : Outcome (List MEnt) :=
  match _h : parseToken tail {} false p with
  | .error => .error
  | .ub => .ub
  | .ok (false, _) => .ok []
  | .ok (true, k) =>
    if k.token = [123] then
      match _h2 : parseBody tail k ⟨[], []⟩ with
      | .error => .error
      | .ub => .ub
      | .ok (e, s) =>
        match loadFrom tail s with
        | .error => .error
        | .ub => .ub
        | .ok es => .ok (e :: es)
    else .error
  termination_by p.rest.length
  decreasing_by
    simp only [parseToken, Bool.false_eq_true, if_false] at _h
    have := Parser.scan_progress _h
    have := parseBody_lt _h2
    omega

/-- `LoadMapOrEntFile` (bsputil/bsputil.cc:568-595). -/
def load (text : Str) : Outcome (List MEnt) := loadFrom 0 (ofFile text)

def kModel : Str := [109, 111, 100, 101, 108]
def kClassname : Str := [99, 108, 97, 115, 115, 110, 97, 109, 101]
def kOrigin : Str := [111, 114, 105, 103, 105, 110]
def kStyle : Str := [115, 116, 121, 108, 101]
def kTargetname : Str := [116, 97, 114, 103, 101, 116, 110, 97, 109, 101]
def vLight : Str := [108, 105, 103, 104, 116]
def vAreaportal : Str := [102, 117, 110, 99, 95, 97, 114, 101, 97, 112, 111, 114, 116, 97, 108]

/-- The entities that get brushes (bsputil/bsputil.cc:1217-1220). -/
def isTarget (e : MEnt) : Bool := EntData.get e.keys kModel ≠ [] ∨ EntData.get e.keys kClassname = vAreaportal

/-- The inner loop (bsputil/bsputil.cc:1216-1229): the place of target number `b`. -/
def nthTarget (b : Nat) : List MEnt → Nat → Nat → Option Nat
  | [], _, _ => none
  | e :: es, b2, i =>
    if ¬ isTarget e then nthTarget b es b2 (i + 1)
    else if b2 = b then some i
    else nthTarget b es (b2 + 1) (i + 1)

/-- The outer loop (bsputil/bsputil.cc:1209-1234), from the entity behind the world on. -/
def assign : List MEnt → Nat → List MEnt → Outcome (List MEnt)
  | [], _, es => .ok es
  | m :: ms, b, es =>
    if m.brushes = [] then assign ms b es
    else
      match nthTarget b es 1 0 with
      | none => .error
      | some i => assign ms (b + 1) (es.modify i fun e => { e with brushes := m.brushes })

/-- Removing keys (bsputil/bsputil.cc:1236-1253). -/
def clean (e : MEnt) : MEnt :=
  let d := if e.brushes ≠ [] ∧ EntData.has e.keys kOrigin then EntData.remove e.keys kOrigin else e.keys
  let d := if EntData.has d kStyle then
      (if EntData.get d kClassname = vLight then
        (if EntData.has d kTargetname then EntData.remove d kStyle else d)
      else if EntData.get d kClassname = vAreaportal then EntData.remove d kStyle
      else d)
    else d
  ⟨d, e.brushes⟩

/-- `--replace-entities` on loaded entities (bsputil/bsputil.cc:1206-1253). The first entity of an empty list is undefined. -/
def replace (map ents : List MEnt) : Outcome (List MEnt) :=
  match map, ents with
  | w :: ms, e :: es => assign ms 1 ({ e with brushes := w.brushes } :: es) >>= fun r => .ok (r.map clean)
  | _, _ => .ub

/-- What is written (bsputil/bsputil.cc:1259-1268). -/
def writeEnt (e : MEnt) : Str := [123, 10] ++ (e.keys.map writePair).flatten ++ e.brushes ++ [125, 10]

/-- The whole command (bsputil/bsputil.cc:736, 1204-1268): the text of `.replaced.map`. -/
def replaceText (map ents : Str) : Outcome Str :=
  load map >>= fun m => load ents >>= fun e => replace m e >>= fun r => .ok (r.map writeEnt).flatten

end Verif.BspUtil.Replace
