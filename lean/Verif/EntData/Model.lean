import Verif.EntData.Dict
import Verif.Parser.Lemmas

/-!
Model of the entity text format: `entdict_t::parse`, `EntData_ParseInto`, `EntData_Write`
(common/entdata.cc:145-232).
-/

namespace Verif.EntData

open Verif.Parser (State parseToken atEnd ofString)

/-- `std::isspace` in the C locale. The argument is a `char`: for bytes from 128 on it is negative,
which is undefined. -/
def isSpace (b : UInt8) : Outcome Bool :=
  if 128 ≤ b then .ub else .ok (b = 32 || (9 ≤ b && b ≤ 13))

/-- `while (std::isspace(keystr.front())) keystr.erase(keystr.begin());` (common/entdata.cc:172-174).
`front` of an empty string is undefined. -/
def trimFront : Str → Outcome Str
  | [] => .ub
  | b :: bs => do
    if ← isSpace b then trimFront bs else pure (b :: bs)

/-- `while (std::isspace(keystr.back())) keystr.erase(keystr.cbegin());` (common/entdata.cc:175-177):
the test is at the end but the byte erased is the first. `back` of an empty string is undefined. -/
def trimBack : Str → Outcome Str
  | [] => .ub
  | b :: bs => do
    if ← isSpace ((b :: bs).getLast (by simp)) then trimBack bs else pure (b :: bs)

/-- The key as stored (common/entdata.cc:171-177). -/
def trimKey (k : Str) : Outcome Str := do
  let k ← trimFront k
  trimBack k

/-- The loop of `entdict_t::parse` (common/entdata.cc:154-180). 125 is `}`. -/
def parsePairs (tail : Nat) (p : State) (d : Dict) : Outcome (Dict × State) :=
  match _h : parseToken tail {} false p with
  | .error => .error
  | .ub => .ub
  | .ok (false, _) => .error
  | .ok (true, k) =>
    if k.token = [125] then .ok (d, k)
    else
      match _h2 : parseToken tail {} false k with
      | .error => .error
      | .ub => .ub
      | .ok (false, _) => .error
      | .ok (true, v) =>
        if v.token = [125] then .error
        else
          match trimKey k.token with
          | .error => .error
          | .ub => .ub
          | .ok key => parsePairs tail v (set d key v.token)
  termination_by p.rest.length
  decreasing_by
    simp only [parseToken, Bool.false_eq_true, if_false] at _h _h2
    have := Parser.scan_progress _h
    have := Parser.scan_progress _h2
    omega

/-- `entdict_t::parse` on an empty dictionary (common/entdata.cc:36-39,145-181). 123 is `{`. -/
def parseEntity (tail : Nat) (p : State) : Outcome (Dict × State) :=
  match parseToken tail {} false p with
  | .error => .error
  | .ub => .ub
  | .ok (false, s) => .ok ([], s)
  | .ok (true, s) => if s.token = [123] then parsePairs tail s [] else .error

theorem parsePairs_le {tail : Nat} {p s : State} {d e : Dict} (h : parsePairs tail p d = .ok (e, s)) :
    s.rest.length < p.rest.length := by
  fun_induction parsePairs tail p d
  all_goals first
    | (simp at h; done)
    | skip
  · rename_i hk _
    simp only [Outcome.ok.injEq, Prod.mk.injEq] at h
    rw [← h.2]
    simp only [parseToken, Bool.false_eq_true, if_false] at hk
    exact Parser.scan_progress hk
  · rename_i hk _ _ hv _ _ _ ih
    simp only [parseToken, Bool.false_eq_true, if_false] at hk hv
    have := Parser.scan_progress hk
    have := Parser.scan_progress hv
    have := ih h
    omega

theorem parseEntity_lt {tail : Nat} {p q s : State} {e : Dict}
    (hp : parseToken tail {} true p = .ok (true, q)) (h : parseEntity tail q = .ok (e, s)) :
    s.rest.length < p.rest.length := by
  simp only [parseToken, if_true] at hp
  rw [Outcome.bind_eq_ok] at hp
  obtain ⟨⟨f, q'⟩, hq', hp⟩ := hp
  simp only [Outcome.pure_eq, Outcome.ok.injEq, Prod.mk.injEq] at hp
  obtain ⟨rfl, rfl⟩ := hp
  simp only [parseEntity, parseToken, Bool.false_eq_true, if_false, hq'] at h
  split at h
  · have := parsePairs_le h
    have := Parser.scan_progress hq'
    omega
  · simp at h

/-- `EntData_ParseInto` (common/entdata.cc:188-199). -/
def parseInto (tail : Nat) (p : State) (acc : List Dict) : Outcome (List Dict × State) :=
  if atEnd tail p.rest then .ok (acc, p)
  else
    match _h : parseToken tail {} true p with
    | .error => .error
    | .ub => .ub
    | .ok (false, q) => .ok (acc, q)
    | .ok (true, q) =>
      match _h2 : parseEntity tail q with
      | .error => .error
      | .ub => .ub
      | .ok (e, s) => parseInto tail s (acc ++ [e])
  termination_by p.rest.length
  decreasing_by exact parseEntity_lt _h _h2

/-- `EntData_Parse` of the entity string of a BSP (common/entdata.cc:201-214). The parser's constructor
takes the address of the first byte (common/parser.cc:70-73), which an empty string does not have. -/
def parseText (text : Str) : Outcome (List Dict) :=
  if text = [] then .ub
  else do
    let r ← parseInto 1 (ofString text) []
    pure r.1

/-- One pair as written: `"key" "value"` and a newline (common/entdata.cc:226-228). -/
def writePair (kv : Str × Str) : Str := 34 :: kv.1 ++ [34, 32, 34] ++ kv.2 ++ [34, 10]

/-- One entity as written (common/entdata.cc:225-229). -/
def writeEntity (d : Dict) : Str := [123, 10] ++ (d.map writePair).flatten ++ [125, 10]

/-- `EntData_Write` (common/entdata.cc:221-232). -/
def write (es : List Dict) : Str := (es.map writeEntity).flatten

end Verif.EntData
