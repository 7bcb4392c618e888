import Verif.Vis.RowsLemmas

/-!
C12, C13: cluster visibility rows and the potentially hearable set.
-/

namespace Verif.Vis.Rows

open Verif Outcome

/-! ### Specification -/

/-- Cluster `c` sees cluster `d`: itself, or through one of its portals. -/
def ClusterSees (m : Map) (c d : Nat) : Prop := d = c ∨ ∃ p ∈ m.portals c, p.2 d = true

/-- What bit `i` of a row of cluster `c` has to say. -/
def RowMeans (m : Map) (c i : Nat) : Prop :=
  i < m.rowBits ∧ if m.q2 then ClusterSees m c i else ClusterSees m c (m.cluster i).toNat

/-- Every portal is finished and, where rows are per leaf, every leaf has a cluster. -/
def MapOk (m : Map) : Prop :=
  (∀ c, c < m.portalleafs → ∀ p ∈ m.portals c, p.1 = PStat.done) ∧
  (m.q2 = false → ∀ i < m.portalleafsReal, 0 ≤ m.cluster i ∧ m.cluster i < m.portalleafs)

/-! ### C12 -/

theorem clusterRow_spec (m : Map) (hm : MapOk m) (c : Nat) (hc : c < m.portalleafs) :
    ∃ row, clusterRow m c = .ok row ∧ row.length = (m.rowBits + 7) / 8 ∧
      ∀ i, bitAt row i = true ↔ RowMeans m c i := by
  obtain ⟨b, eb, hb⟩ := collect_spec (m.portals c) (fun _ => false) (hm.1 c hc)
  let f : Nat → Bool := fun i => if m.q2 then (if i = c then true else b i)
    else (if (m.cluster i).toNat = c then true else b (m.cluster i).toNat)
  have hlook : ∀ k, 0 ≤ k → k < 0 + m.rowBits →
      m.look (fun L => if L = c then true else b L) k = .ok (f k) := by
    intro k _ hk
    unfold Map.look
    cases hq : m.q2
    · have hk' : k < m.portalleafsReal := by
        have : m.rowBits = m.portalleafsReal := by simp [Map.rowBits, hq]
        omega
      have := hm.2 hq k hk'
      simp [this, f, hq]
    · simp [f, hq]
  obtain ⟨row, er, hl, hbits⟩ := expand_spec _ f m.rowBits 0 (List.replicate m.rowSpace 0) hlook
    (by simp [Map.rowSpace]; omega)
  refine ⟨row.take ((m.rowBits + 7) / 8), by rw [clusterRow, eb, ok_bind, er]; rfl, ?_, ?_⟩
  · rw [List.length_take, hl, List.length_replicate, Map.rowSpace]; omega
  · intro i
    have hf : f i = true ↔ if m.q2 then ClusterSees m c i else ClusterSees m c (m.cluster i).toNat := by
      have hb' : ∀ L, b L = true ↔ ∃ x ∈ m.portals c, x.2 L = true := by
        intro L; rw [hb L]; simp
      cases hq : m.q2
      · by_cases e : (m.cluster i).toNat = c
        · simp [f, hq, ClusterSees, e]
        · simp [f, hq, ClusterSees, e, hb']
      · by_cases e : i = c
        · simp [f, hq, ClusterSees, e]
        · simp [f, hq, ClusterSees, e, hb']
    rw [bitAt_take, hbits i, bitAt_replicate, Bool.false_or]
    unfold RowMeans
    rw [← hf]
    simp only [Bool.and_eq_true, decide_eq_true_eq]
    constructor
    · rintro ⟨_, ⟨_, h⟩, h'⟩; exact ⟨by omega, h'⟩
    · rintro ⟨h, h'⟩; exact ⟨by omega, ⟨by omega, by omega⟩, h'⟩

theorem calcVis_spec (m : Map) (hm : MapOk m) (todo c : Nat) (hc : c + todo = m.portalleafs) (o : Out)
    (hdone : ∀ d < c, ∃ before row after, o.vismap = before ++ VisRow.compressRow row ++ after ∧
      o.clusterOfs d = some before.length ∧ row.length = (m.rowBits + 7) / 8 ∧
      (∀ i, bitAt row i = true ↔ RowMeans m d i) ∧
      (m.q2 = false → ∀ i < m.portalleafsReal, m.cluster i = d → o.leafOfs i = some before.length)) :
    ∃ o', calcVis m todo c o = .ok o' ∧
      ∀ d < m.portalleafs, ∃ before row after, o'.vismap = before ++ VisRow.compressRow row ++ after ∧
      o'.clusterOfs d = some before.length ∧ row.length = (m.rowBits + 7) / 8 ∧
      (∀ i, bitAt row i = true ↔ RowMeans m d i) ∧
      (m.q2 = false → ∀ i < m.portalleafsReal, m.cluster i = d → o'.leafOfs i = some before.length) := by
  induction todo generalizing c o with
  | zero => exact ⟨o, rfl, fun d hd => hdone d (by omega)⟩
  | succ todo ih =>
    obtain ⟨row, er, hl, hbits⟩ := clusterRow_spec m hm c (by omega)
    unfold calcVis clusterFlow
    rw [er]
    simp only [ok_bind, pure_eq]
    apply ih (c + 1) (by omega)
    intro d hd
    by_cases hdc : d = c
    · subst hdc
      refine ⟨o.vismap, row, [], by simp, by simp, hl, hbits, ?_⟩
      intro hq i hi hcl
      simp [hq, hi, hcl]
    · obtain ⟨b, r, a, p, q, t, u, v⟩ := hdone d (by omega)
      refine ⟨b, r, a ++ VisRow.compressRow row, by simp [p], by simp [hdc, q], t, u, ?_⟩
      intro hq i hi hcl
      have : ¬ (m.cluster i = (c : Int)) := by rw [hcl]; omega
      simp [this, v hq i hi hcl]

/-- **C12.**  When every portal is finished, the last stage of vis succeeds; reading back the row at
the offset stored for a cluster gives a row in which bit `i` is set exactly if `i` is one of the row's
leafs and the cluster sees it (Quake II) or its cluster (other games); and every leaf's own offset
is that of its cluster. -/
theorem cluster_rows_are_unions (m : Map) (hm : MapOk m) :
    ∃ o, calcVisAll m = .ok o ∧ ∀ c < m.portalleafs, ∃ ofs row,
      o.clusterOfs c = some ofs ∧
      VisRow.decompressRow o.vismap ofs ((m.rowBits + 7) / 8) = .ok row ∧
      (∀ i, bitAt row i = true ↔ RowMeans m c i) ∧
      (m.q2 = false → ∀ i < m.portalleafsReal, m.cluster i = c → o.leafOfs i = some ofs) := by
  obtain ⟨o, e, h⟩ := calcVis_spec m hm m.portalleafs 0 (by omega)
    { vismap := [], clusterOfs := fun _ => none, leafOfs := fun _ => none } (by intro d hd; omega)
  refine ⟨o, e, fun c hc => ?_⟩
  obtain ⟨b, row, a, p, q, t, u, v⟩ := h c hc
  refine ⟨b.length, row, q, ?_, u, v⟩
  rw [p, ← t]
  exact VisRow.pvs_row_roundtrip b row a

/-- **C12**: an unfinished portal makes the stage fail instead of writing a wrong row. -/
theorem unfinished_portal_is_an_error (m : Map) (c : Nat) (p : PStat × (Nat → Bool))
    (hp : p ∈ m.portals c) (hst : p.1 ≠ .done) : clusterRow m c = .error := by
  have : ∀ (ps : List (PStat × (Nat → Bool))) buf, p ∈ ps → collect ps buf = .error := by
    intro ps
    induction ps with
    | nil => intro _ h; simp at h
    | cons x ps ih =>
      intro buf h
      unfold collect
      split
      · rfl
      · rename_i hx
        rcases List.mem_cons.1 h with rfl | h
        · exact absurd hst hx
        · exact ih _ h
  simp [clusterRow, this _ _ hp]

/-- Three leafs in two clusters (leafs 1 and 2 share cluster 0), joined by one portal. -/
def exMap : Map where
  q2 := false
  portalleafs := 2
  portalleafsReal := 3
  cluster i := if i < 2 then 0 else 1
  portals c := if c = 0 then [(.done, fun L => L = 1)] else [(.done, fun _ => false)]

example : MapOk exMap := by
  refine ⟨?_, ?_⟩
  · intro c _ p hp; simp only [exMap] at hp; split at hp <;> simp_all
  · intro _ i _; simp only [exMap]; split <;> simp
example : clusterRow exMap 0 = .ok [7] := by decide +kernel
example : clusterRow exMap 1 = .ok [4] := by decide +kernel

/-! ### C13 -/

/-- The PHS as it should be: the PVS row and the rows of all clusters in it. -/
def Hears (rows : Nat → List UInt8) (n c k : Nat) : Prop :=
  bitAt (rows c) k = true ∨ ∃ j < n, bitAt (rows c) j = true ∧ bitAt (rows j) k = true

/-- **C13**, in general: for every PVS in the lump, with `w`-byte machine words, the PHS row of a
cluster is its PVS row, and within the row's whole machine words also the rows of the clusters seen;
clusters in the remaining bytes of the row are only heard when seen.  The PVS in the lump is kept. -/
theorem phs_rows_partial (w n : Nat) (pvs : Nat → Nat) (rows : Nat → List UInt8) (bits : List UInt8)
    (hh : Holds bits pvs rows n) (hpad : ∀ c < n, ∀ i, bitAt (rows c) i = true → i < n) :
    ∃ bits' ofs, calcPHS w n pvs bits = .ok (bits', ofs) ∧ ofs.length = n ∧ Holds bits' pvs rows n ∧
      ∀ c < n, ∃ o row, ofs[c]? = some o ∧ VisRow.decompressRow bits' o ((n + 7) / 8) = .ok row ∧
        ∀ k, bitAt row k = true ↔ if k / 8 < (n + 7) / 8 / w * w then Hears rows n c k
          else bitAt (rows c) k = true := by
  obtain ⟨s, e, ⟨x, hx⟩, hl, hall⟩ := phsClusters_spec w n pvs rows hpad n 0
    { bits := bits, ofs := [], buf := List.replicate ((n + 7) / 8) 0,
      buf2 := List.replicate ((n + 7) / 8) 0 } (by omega) hh (by simp) (by simp) rfl (by intro d hd; omega)
  refine ⟨s.bits, s.ofs, by simp [calcPHS, e], hl, by rw [hx]; exact holds_append hh x, fun c hc => ?_⟩
  obtain ⟨b, row, a, p, q, hlen, hrow⟩ := hall c hc
  refine ⟨b.length, row, q, ?_, fun k => ?_⟩
  · rw [p, ← hlen]; exact VisRow.pvs_row_roundtrip b row a
  · rw [hrow k]
    unfold Hears
    split
    · rename_i hk; simp [hk]
    · rename_i hk; simp [hk]

/-- **C13** when rows are a whole number of machine words: then the property holds in full. -/
theorem phs_complete_on_whole_words_partial (w n : Nat) (hw : (n + 7) / 8 % w = 0) (pvs : Nat → Nat)
    (rows : Nat → List UInt8) (bits : List UInt8) (hh : Holds bits pvs rows n)
    (hpad : ∀ c < n, ∀ i, bitAt (rows c) i = true → i < n) :
    ∃ bits' ofs, calcPHS w n pvs bits = .ok (bits', ofs) ∧
      ∀ c < n, ∃ o row, ofs[c]? = some o ∧ VisRow.decompressRow bits' o ((n + 7) / 8) = .ok row ∧
        ∀ k, bitAt row k = true ↔ Hears rows n c k := by
  obtain ⟨bits', ofs, e, _, _, h⟩ := phs_rows_partial w n pvs rows bits hh hpad
  refine ⟨bits', ofs, e, fun c hc => ?_⟩
  obtain ⟨o, row, h1, h2, h3⟩ := h c hc
  refine ⟨o, row, h1, h2, fun k => ?_⟩
  rw [h3 k]
  have hww : (n + 7) / 8 / w * w = (n + 7) / 8 := Nat.div_mul_cancel (Nat.dvd_of_mod_eq_zero hw)
  rw [hww]
  split
  · exact Iff.rfl
  · rename_i hk
    -- no row has bits beyond its length
    have hz : ∀ d < n, bitAt (rows d) k = false := by
      intro d hd
      have hl : (rows d).length = (n + 7) / 8 := (hh d hd).choose_spec.choose_spec.2.2
      unfold bitAt; rw [List.getElem?_eq_none (by omega)]
    unfold Hears
    rw [hz c hc]
    simp only [Bool.false_eq_true, false_or, false_iff, not_exists, not_and]
    intro j hj _ hb
    rw [hz j hj] at hb; cases hb

/-- Three clusters in a row: 0 sees 1, 1 sees all, 2 sees 1. -/
def exRows (c : Nat) : List UInt8 := if c = 0 then [3] else if c = 1 then [7] else [6]

/-- The hypotheses of the theorems above hold of the example. -/
theorem exRows_ok : Holds [3, 7, 6] (fun c => c) exRows 3 ∧
    ∀ c < 3, ∀ i, bitAt (exRows c) i = true → i < 3 := by
  refine ⟨?_, ?_⟩
  · intro c hc
    match c, hc with
    | 0, _ => exact ⟨[], [7, 6], by decide +kernel, rfl, rfl⟩
    | 1, _ => exact ⟨[3], [6], by decide +kernel, rfl, rfl⟩
    | 2, _ => exact ⟨[3, 7], [], by decide +kernel, rfl, rfl⟩
  · intro c hc i hi
    by_cases h8 : i < 8
    · have key : ∀ c < 3, ∀ i < 8, bitAt (exRows c) i = true → i < 3 := by decide +kernel
      exact key c hc i h8 hi
    · exfalso
      have hl : ∀ c, (exRows c).length = 1 := by
        intro c; unfold exRows; split
        · rfl
        · split <;> rfl
      unfold bitAt at hi
      rw [List.getElem?_eq_none (by rw [hl]; omega)] at hi
      cases hi

/-- **C13 fails in general.**  With 8-byte words and three clusters, cluster 0 sees cluster 1 and
cluster 1 sees cluster 2, but cluster 2 is missing from the PHS row of cluster 0. -/
theorem phs_misses_last_bytes : ∃ bits' ofs o row, calcPHS 8 3 (fun c => c) [3, 7, 6] = .ok (bits', ofs) ∧
    ofs[0]? = some o ∧ VisRow.decompressRow bits' o 1 = .ok row ∧
    Hears exRows 3 0 2 ∧ bitAt row 2 = false :=
  ⟨[3, 7, 6, 3, 7, 6], [3, 4, 5], 3, [3], by decide +kernel, rfl, by decide +kernel,
    .inr ⟨1, by decide, by decide +kernel, by decide +kernel⟩, by decide +kernel⟩

-- 64 clusters fill one 8-byte word
example : (64 + 7) / 8 % 8 = 0 := rfl

end Verif.Vis.Rows
