import Verif.Vis.Graph

/-!
Model of the portal flow of vis: `SimpleFlood`, `TargetChecks`, `IterativeTargetChecks`,
`RecursiveLeafFlow` and `PortalFlow` (vis/flow.cc).

Bit sets (`leafbits_t`) are functions to `Bool`.  The winding tests are a parameter here: functions of
the walk, of the windings kept in the innermost frame, and of the planes kept from earlier tests of the
same loop; the tests of the code are in `Verif.Vis.Clip`.  The target-check trigger and the values read
from other portals (which other threads change concurrently) are oracles that may depend on a step
counter.
-/

namespace Verif.Vis

variable {Leaf Portal W C : Type} [DecidableEq Leaf] [DecidableEq Portal]

/-- Set one bit. -/
def mark (b : Leaf → Bool) (L : Leaf) : Leaf → Bool := fun M => if M = L then true else b M

/-- Number of set bits. -/
def popcount (G : Graph Leaf Portal) (b : Leaf → Bool) : Nat := G.leafs.countP b

/-- Leafs not yet in `seen`: the measure for the recursions below. -/
def remaining (G : Graph Leaf Portal) (seen : Leaf → Bool) : Nat := G.leafs.countP (fun L => !seen L)

theorem countP_lt {α} {l : List α} {P Q : α → Bool} (h : ∀ x ∈ l, P x = true → Q x = true) {a : α}
    (ha : a ∈ l) (hq : Q a = true) (hp : P a = false) : l.countP P < l.countP Q := by
  induction l with
  | nil => simp at ha
  | cons b l ih =>
    have hmono : l.countP P ≤ l.countP Q :=
      List.countP_mono_left (fun x hx => h x (List.mem_cons_of_mem _ hx))
    rcases List.mem_cons.1 ha with rfl | ha
    · simp [hq, hp]; omega
    · have := ih (fun x hx => h x (List.mem_cons_of_mem _ hx)) ha
      have hb := h b List.mem_cons_self
      cases hpb : P b
      · simp [List.countP_cons, hpb]; omega
      · simp [hpb, hb hpb]; omega

omit [DecidableEq Portal] in
theorem remaining_mark (G : Graph Leaf Portal) {b : Leaf → Bool} {L : Leaf} (h : b L = false) :
    remaining G (mark b L) < remaining G b := by
  apply countP_lt (a := L) _ (G.mem_leafs L)
  · simp [h]
  · simp [mark]
  · intro x _; simp only [mark]; split <;> simp

omit [DecidableEq Leaf] [DecidableEq Portal] in
theorem remaining_mono (G : Graph Leaf Portal) {b c : Leaf → Bool} (h : ∀ L, b L = true → c L = true) :
    remaining G c ≤ remaining G b := by
  apply List.countP_mono_left
  intro x _ hx
  cases hb : b x
  · rfl
  · simp [h x hb] at hx

/-! ### `SimpleFlood` -/

mutual
/-- `SimpleFlood` (vis/flow.cc:552-566): returns the new `mightsee` and `nummightsee`; the bits only
grow, which the subtype records so that the recursion is seen to terminate. -/
def flood (G : Graph Leaf Portal) (portalsee : Portal → Bool) (L : Leaf) (s : (Leaf → Bool) × Nat) :
    { r : (Leaf → Bool) × Nat // ∀ M, s.1 M = true → r.1 M = true } :=
  if h : s.1 L = true then ⟨s, fun _ hM => hM⟩
  else
    have : remaining G (mark s.1 L) < remaining G s.1 := remaining_mark G (by simpa using h)
    let r := floodLoop G portalsee (G.out L) (mark s.1 L, s.2 + 1)
    ⟨r.1, fun M hM => r.2 M (by simp [mark, hM])⟩
  termination_by (remaining G s.1, 0)

/-- The loop over the portals of the leaf, vis/flow.cc:560-565. -/
def floodLoop (G : Graph Leaf Portal) (portalsee : Portal → Bool) (ps : List Portal)
    (s : (Leaf → Bool) × Nat) : { r : (Leaf → Bool) × Nat // ∀ M, s.1 M = true → r.1 M = true } :=
  match ps with
  | [] => ⟨s, fun _ hM => hM⟩
  | p :: ps =>
    if portalsee p then
      let r1 := flood G portalsee (G.dest p) s
      have : remaining G r1.1.1 ≤ remaining G s.1 := remaining_mono G r1.2
      let r2 := floodLoop G portalsee ps r1.1
      ⟨r2.1, fun M hM => r2.2 M (r1.2 M hM)⟩
    else floodLoop G portalsee ps s
  termination_by (remaining G s.1, ps.length + 1)
  decreasing_by
    · exact Prod.Lex.right _ (by simp)
    · rcases Nat.lt_or_eq_of_le this with h | h
      · exact Prod.Lex.left _ _ h
      · rw [h]; exact Prod.Lex.right _ (by simp)
    · exact Prod.Lex.right _ (by simp)
end

/-- `BasePortalThread` (vis/flow.cc:573-645), after the front/back tests: `front p q` is the outcome
of the plane, coplanarity and distance tests of portal `q` against portal `p`; a portal is never
tested against itself (`i == portalnum` is skipped), so its own bit stays clear. -/
def basePortal (G : Graph Leaf Portal) (front : Portal → Portal → Bool) (p : Portal) :
    (Leaf → Bool) × Nat :=
  (flood G (fun q => if q = p then false else front p q) (G.dest p) (fun _ => false, 0)).1

/-! ### Target checks -/

/-- The winding tests.  `W`: the windings kept in a frame of the stack (`source` and `pass`); `C`: the
planes kept from one test to the next (`separators`, `numseparators`).
`start`: the windings of the first frame (vis/flow.cc:534); `none`: no planes (vis/flow.cc:398-399).
`step c d k q`: looking at portal `q` through the walk `c`, with the windings `d` of its last frame
(vis/flow.cc:452-508): the planes kept, and the windings of the next frame unless the portal is
rejected.  `target c d k q`: the same for target checks (vis/flow.cc:236-280). -/
structure Tests (Portal W C : Type) where
  start : Portal → W
  none : C
  step : List Portal → W → C → Portal → C × Option W
  target : List Portal → W → C → Portal → C × Bool

/-- The part of `pstack_t` the flow depends on (include/vis/vis.hh, `pstack_t`). -/
structure Frame (Leaf W : Type) where
  might : Leaf → Bool
  did : Bool
  win : W

/-- Main loop of `TargetChecks` (vis/flow.cc:225-297); `tclip k p`: target portal `p` survives the
winding tests when the planes `k` are kept.  The portals `q ^ 1` for `q` out of the leaf are
exactly the portals leading into it (vis/vis.cc LoadPortals), and "upcoming in iteration order" is
membership in the rest of the list. -/
def tcLoop (G : Graph Leaf Portal) (tclip : C → Portal → C × Bool) (prev : Leaf → Bool)
    (prevpb : Portal → Bool) : List Portal → C → (Leaf → Bool) → (Portal → Bool) →
    (Leaf → Bool) × (Portal → Bool)
  | [], _, loc, pb => (loc, pb)
  | p :: ps, k, loc, pb =>
    if loc (G.dest p) then tcLoop G tclip prev prevpb ps k loc pb
    else if !prev (G.dest p) then tcLoop G tclip prev prevpb ps k loc pb
    else if !prevpb p then tcLoop G tclip prev prevpb ps k loc pb
    else if !(tclip k p).2 then tcLoop G tclip prev prevpb ps (tclip k p).1 loc pb
    else tcLoop G tclip prev prevpb ps (tclip k p).1 (mark loc (G.dest p)) (fun q =>
      if q = p then true
      else if q ∈ ps ∧ G.dest q = G.dest p then prevpb q
      else pb q)

/-- `TargetChecks` (vis/flow.cc:195-302).  The first frame of the stack has no pass portal: the
portal bits are handed on and nothing is filtered (lines 203-206). -/
def targetChecks (G : Graph Leaf Portal) (tclip : C → Portal → C × Bool) (k : C) (first : Bool)
    (prev : Leaf → Bool) (prevpb : Portal → Bool) : (Leaf → Bool) × (Portal → Bool) :=
  if first then (prev, prevpb)
  else tcLoop G tclip prev prevpb G.portals k (fun _ => false) (fun _ => false)

/-- `IterativeTargetChecks` (vis/flow.cc:312-348), walking the stack from its head: `c` are the
portals of the frames already visited, `mask` is the set and-ed into the next frame's `mightsee`
(all ones when there is none). -/
def iterTC (G : Graph Leaf Portal) (w : Tests Portal W C) :
    List Portal → (Leaf → Bool) → (Portal → Bool) → List (Portal × Frame Leaf W) →
    List (Portal × Frame Leaf W)
  | _, _, _, [] => []
  | c, mask, pb, (p, f) :: rest =>
    let might := fun L => f.might L && mask L
    if f.did then (p, ⟨might, true, f.win⟩) :: iterTC G w (c ++ [p]) (fun _ => true) pb rest
    else
      let r := targetChecks G (w.target (c ++ [p]) f.win) w.none c.isEmpty might pb
      (p, ⟨r.1, true, f.win⟩) :: iterTC G w (c ++ [p]) r.1 r.2 rest

/-! ### `RecursiveLeafFlow` -/

/-- What the flow gets from outside: the winding tests, whether target checks run
at a given step, and the bit of `visbits`/`mightsee` of another portal read at a given step. -/
structure Oracle (Leaf Portal W C : Type) where
  w : Tests Portal W C
  trigger : Nat → Bool
  test : Nat → Portal → Leaf → Bool

/-- The thread's state: `leafvis`, the stack (head first) and the step counter. -/
structure FState (Leaf Portal W : Type) where
  vis : Leaf → Bool
  stack : List (Portal × Frame Leaf W)
  tick : Nat

/-- `prevstack.mightsee`: the set of the innermost frame. -/
def topMight (s : FState Leaf Portal W) : Leaf → Bool :=
  match s.stack.getLast? with
  | some x => x.2.might
  | none => fun _ => false

/-- The portals on the stack. -/
def chainOf (s : FState Leaf Portal W) : List Portal := s.stack.map Prod.fst

/-- The optional target checks, vis/flow.cc:380-390. -/
def maybeTC (G : Graph Leaf Portal) (o : Oracle Leaf Portal W C) (s : FState Leaf Portal W) :
    FState Leaf Portal W :=
  if o.trigger s.tick then
    { s with stack := iterTC G o.w [] (fun _ => true) (fun _ => true) s.stack, tick := s.tick + 1 }
  else { s with tick := s.tick + 1 }

mutual
/-- `RecursiveLeafFlow` (vis/flow.cc:359-515): `onStack` are the leafs `CheckStack` looks through, `d`
the windings of `prevstack`. -/
def flow (G : Graph Leaf Portal) (o : Oracle Leaf Portal W C) (onStack : Leaf → Bool) (leaf : Leaf)
    (d : W) (s : FState Leaf Portal W) : FState Leaf Portal W :=
  if h : onStack leaf = true then s
  else
    have : remaining G (mark onStack leaf) < remaining G onStack := remaining_mark G (by simpa using h)
    flowLoop G o (mark onStack leaf) d (G.out leaf) o.w.none
      (maybeTC G o { s with vis := mark s.vis leaf })
  termination_by (remaining G onStack, 0)

/-- The loop over the portals of the leaf, vis/flow.cc:411-514.  Clipping the target portal against
the source plane, the pass plane and the separators, clipping the source, and the coplanarity test
are all in `step`. -/
def flowLoop (G : Graph Leaf Portal) (o : Oracle Leaf Portal W C) (onStack : Leaf → Bool) (d : W)
    (ps : List Portal) (k : C) (s : FState Leaf Portal W) : FState Leaf Portal W :=
  match ps with
  | [] => s
  | p :: ps =>
    if !topMight s (G.dest p) then flowLoop G o onStack d ps k s
    else
      let might := fun L => topMight s L && o.test s.tick p L
      let s1 : FState Leaf Portal W := { s with tick := s.tick + 1 }
      if !G.leafs.any (fun L => might L && !s.vis L) then flowLoop G o onStack d ps k s1
      else
        match o.w.step (chainOf s) d k p with
        | (k', none) => flowLoop G o onStack d ps k' s1
        | (k', some d') =>
          let s2 := flow G o onStack (G.dest p) d'
            { s1 with stack := s1.stack ++ [(p, ⟨might, false, d'⟩)] }
          flowLoop G o onStack d ps k' { s2 with stack := s2.stack.dropLast }
  termination_by (remaining G onStack, ps.length + 1)
  decreasing_by
    all_goals exact Prod.Lex.right _ (by simp)
end

/-- `PortalFlow` (vis/flow.cc:522-543), for a portal whose status is "working": the `visbits`
computed from its `mightsee`. -/
def portalFlow (G : Graph Leaf Portal) (o : Oracle Leaf Portal W C) (p : Portal)
    (might : Leaf → Bool) : Leaf → Bool :=
  (flow G o (fun _ => false) (G.dest p) (o.w.start p)
    { vis := fun _ => false, stack := [(p, ⟨might, false, o.w.start p⟩)], tick := 0 }).vis

end Verif.Vis
