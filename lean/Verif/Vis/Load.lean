import Verif.Vis.Graph

/-!
Model of the graph part of `LoadPortals` (vis/vis.cc:584-676): the portals of a .prt file, given by
the pairs of leafs they join, become the portal graph.
-/

namespace Verif.Vis

/-- Leaf numbers of portal `i` in the .prt file. -/
def pairAt {n : Nat} (prs : List (Fin n × Fin n)) (i : Fin (2 * prs.length)) : Fin n × Fin n :=
  prs[i.val / 2]'(by have := i.isLt; omega)

/-- `visportal_t::leaf` (vis/vis.cc:646, 663): the forward portal (even index) leads into
`leafnums[1]`, the backward one into `leafnums[0]`. -/
def destAt {n : Nat} (prs : List (Fin n × Fin n)) (i : Fin (2 * prs.length)) : Fin n :=
  if i.val % 2 = 0 then (pairAt prs i).2 else (pairAt prs i).1

/-- The leaf whose list the portal is pushed to (vis/vis.cc:641-642, 653-654). -/
def ownerAt {n : Nat} (prs : List (Fin n × Fin n)) (i : Fin (2 * prs.length)) : Fin n :=
  if i.val % 2 = 0 then (pairAt prs i).1 else (pairAt prs i).2

/-- The other portal of the pair: index `i ^ 1` (vis/flow.cc:288). -/
def revAt {n : Nat} (prs : List (Fin n × Fin n)) (i : Fin (2 * prs.length)) : Fin (2 * prs.length) :=
  if h : i.val % 2 = 0 then ⟨i.val + 1, by have := i.isLt; omega⟩
  else ⟨i.val - 1, by have := i.isLt; omega⟩

theorem pairAt_rev {n : Nat} (prs : List (Fin n × Fin n)) (i : Fin (2 * prs.length)) :
    pairAt prs (revAt prs i) = pairAt prs i := by
  unfold pairAt revAt
  split
  · rename_i h
    have : (i.val + 1) / 2 = i.val / 2 := by omega
    simp [this]
  · rename_i h
    have : (i.val - 1) / 2 = i.val / 2 := by omega
    simp [this]

theorem revAt_parity {n : Nat} (prs : List (Fin n × Fin n)) (i : Fin (2 * prs.length)) :
    (revAt prs i).val % 2 = 0 ↔ ¬ i.val % 2 = 0 := by
  unfold revAt
  split <;> simp <;> omega

/-- The 32-leaf blocks of a `leafbits_t` of `n` bits (include/common/cmdlib.hh / vis.hh). -/
def blocksOf (n : Nat) : List (List (Fin n)) :=
  (List.range ((n + 31) / 32)).map fun j => (List.finRange n).filter fun i => i.val / 32 = j

/-- The portal graph `LoadPortals` builds for `n` leafs. -/
def ofPairs {n : Nat} (prs : List (Fin n × Fin n)) : Graph (Fin n) (Fin (2 * prs.length)) where
  portals := List.finRange _
  leafs := List.finRange n
  blocks := blocksOf n
  owner := ownerAt prs
  dest := destAt prs
  rev := revAt prs
  out L := (List.finRange _).filter fun i => ownerAt prs i = L
  mem_portals p := List.mem_finRange p
  nodup_portals := List.nodup_finRange _
  mem_leafs L := List.mem_finRange L
  nodup_leafs := List.nodup_finRange n
  mem_out L p := by simp [List.mem_filter, List.mem_finRange]
  dest_rev p := by
    unfold destAt ownerAt
    rw [pairAt_rev]
    by_cases h : p.val % 2 = 0
    · rw [if_neg (by rw [revAt_parity]; simpa using h), if_pos h]
    · rw [if_pos ((revAt_parity _ _).2 h), if_neg h]
  owner_rev p := by
    unfold destAt ownerAt
    rw [pairAt_rev]
    by_cases h : p.val % 2 = 0
    · rw [if_neg (by rw [revAt_parity]; simpa using h), if_pos h]
    · rw [if_pos ((revAt_parity _ _).2 h), if_neg h]

end Verif.Vis
