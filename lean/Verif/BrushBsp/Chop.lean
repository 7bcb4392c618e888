import Verif.BrushBsp.Model

/-!
Model of the chopping of overlapping brushes (qbsp/brushbsp.cc): `BrushGE`, `BrushesDisjoint`, `SubtractBrush`,
`ChopBrushes`.

Simplifications: those of the model of `SplitBrush`. Brushes are values; the code compares pointers to see that
`SubtractBrush` gave its argument back, which is a result of its own here. Statistics and progress output are left out.
-/

namespace Verif.BrushBsp

open Geom

/-- What chopping reads besides: `contentflags_t::is_any_solid` and `mapbrush_t::no_chop`, by the original brush. -/
structure ChopEnv (K C : Type) extends Env K C where
  isSolid : C → Bool
  noChop : Nat → Bool

variable {K C : Type} [Field K] [LinearOrder K]

/-- `BrushGE` (qbsp/brushbsp.cc:1349-1357): whether the first brush is allowed to bite the second. -/
def mayBite (env : ChopEnv K C) (b1 b2 : Brush K C) : Bool :=
  if env.isDetail b1.contents && !env.isDetail b2.contents then false
  else env.isSolid b1.contents && env.isSolid b2.contents

/-- `aabb::disjoint_or_touching` (include/common/aabb.hh:128-136). -/
def apart (a b : Bounds K) : Bool :=
  (decide (a.maxs.x ≤ b.mins.x) || decide (a.mins.x ≥ b.maxs.x)) ||
  (decide (a.maxs.y ≤ b.mins.y) || decide (a.mins.y ≥ b.maxs.y)) ||
  (decide (a.maxs.z ≤ b.mins.z) || decide (a.mins.z ≥ b.maxs.z))

/-- `BrushesDisjoint` (qbsp/brushbsp.cc:1367-1384). -/
def disjointTest (a b : Brush K C) : Bool :=
  apart a.bounds b.bounds || a.sides.any fun s => b.sides.any fun t => s.planenum == flipNum t.planenum

/-- The loop of `SubtractBrush` (qbsp/brushbsp.cc:1401-1415): what is still inside, and the pieces that were cut off.
`none` when nothing is left inside. -/
def carve (env : ChopEnv K C) : List (Side K) → Brush K C → List (Brush K C) → Option (List (Brush K C))
  | [], _, out => some out
  | s :: l, inside, out =>
    let r := splitBrush env.toEnv s.planenum inside
    let out := match r.1 with
      | some f => f :: out
      | none => out
    match r.2 with
    | none => none
    | some b => carve env l b out

/-- `SubtractBrush` (qbsp/brushbsp.cc:1396-1418); `none` stands for the list that holds only the brush `a` itself. -/
def subtract (env : ChopEnv K C) (a b : Brush K C) : Option (List (Brush K C)) := carve env b.sides a []

/-- The outcome of one half of the loop body (qbsp/brushbsp.cc:1487-1500 and 1502-1514). -/
inductive Bite (K C : Type) where
  /-- biting is not allowed -/
  | may_not
  /-- the brushes do not intersect -/
  | missed
  /-- nothing is left -/
  | swallowed
  /-- what is left, at least one piece -/
  | parts (l : List (Brush K C))

/-- `a` is bitten by `b` (qbsp/brushbsp.cc:1487-1500, 1502-1514). -/
def bite (env : ChopEnv K C) (a b : Brush K C) : Bite K C :=
  if mayBite env b a then
    match subtract env a b with
    | none => .missed
    | some [] => .swallowed
    | some l => .parts l
  else .may_not

/-- What happens to the list. -/
inductive Act (K C : Type) where
  /-- the current brush is erased -/
  | gone1
  /-- the current brush is replaced -/
  | cut1 (sub : List (Brush K C))
  /-- the brushes after the current one change -/
  | after (rest : List (Brush K C))

/-- The inner loop (qbsp/brushbsp.cc:1474-1540): the first brush after `b1` with which something happens. -/
def scan (env : ChopEnv K C) (frag : Bool) (b1 : Brush K C) : List (Brush K C) → List (Brush K C) → Option (Act K C)
  | _, [] => none
  | pre, b2 :: l =>
    if env.noChop b2.orig then scan env frag b1 (pre ++ [b2]) l
    else if disjointTest b1 b2 then scan env frag b1 (pre ++ [b2]) l
    else
      match bite env b1 b2 with
      | .missed => scan env frag b1 (pre ++ [b2]) l
      | .swallowed => some .gone1
      | .may_not =>
        match bite env b2 b1 with
        | .missed => scan env frag b1 (pre ++ [b2]) l
        | .swallowed => some (.after (pre ++ l))
        | .may_not => scan env frag b1 (pre ++ [b2]) l
        | .parts sub2 =>
          if !frag && decide (sub2.length > 1) then scan env frag b1 (pre ++ [b2]) l
          else some (.after (pre ++ sub2 ++ l))
      | .parts sub =>
        match bite env b2 b1 with
        | .missed => scan env frag b1 (pre ++ [b2]) l
        | .swallowed => some (.after (pre ++ l))
        | .may_not =>
          if !frag && decide (sub.length > 1) then scan env frag b1 (pre ++ [b2]) l
          else some (.cut1 sub)
        | .parts sub2 =>
          if !frag && decide (sub.length > 1) && decide (sub2.length > 1) then scan env frag b1 (pre ++ [b2]) l
          else if sub.length < sub2.length then some (.cut1 sub)
          else some (.after (pre ++ sub2 ++ l))

/-- The list: the brushes before `b1_it`, and those from it on. -/
structure ChopState (K C : Type) where
  done : List (Brush K C)
  todo : List (Brush K C)

/-- A round of the outer loop, up to the next brush or the next jump to `newlist` (qbsp/brushbsp.cc:1452-1544). When the
current brush is replaced, `b1_it` is set to the brush after the new ones. -/
def chopStep (env : ChopEnv K C) (frag : Bool) (st : ChopState K C) : ChopState K C :=
  match st.todo with
  | [] => st
  | b1 :: rest =>
    if env.noChop b1.orig then ⟨st.done ++ [b1], rest⟩
    else
      match scan env frag b1 [] rest with
      | none => ⟨st.done ++ [b1], rest⟩
      | some .gone1 => ⟨st.done, rest⟩
      | some (.cut1 sub) => ⟨st.done ++ sub, rest⟩
      | some (.after rest') => ⟨st.done, b1 :: rest'⟩

/-- The rounds until the end of the list; `none` when they do not suffice. -/
def chopRun (env : ChopEnv K C) (frag : Bool) : Nat → ChopState K C → Option (List (Brush K C))
  | 0, st => if st.todo = [] then some st.done else none
  | fuel + 1, st => if st.todo = [] then some st.done else chopRun env frag fuel (chopStep env frag st)

/-- `ChopBrushes` (qbsp/brushbsp.cc:1437-1560): `frag` is `allow_fragmentation`. -/
def chopBrushes (env : ChopEnv K C) (frag : Bool) (fuel : Nat) (bs : List (Brush K C)) : Option (List (Brush K C)) :=
  chopRun env frag fuel ⟨[], bs⟩

end Verif.BrushBsp
