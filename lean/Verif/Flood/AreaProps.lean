import Verif.Flood.AreaLemmas
import Verif.Flood.PortalProps

/-!
The areas of a Quake II map and the records of its area portals (C54, C83).
-/

namespace Verif.Flood

open Spec Contents

/-- The emission of areas ends with the result `r`, given enough steps. -/
def Spec.AreasEnd (w : AreaMap) (off : Bool) (nums : List Nat) (r : AreaResult) : Prop :=
  ∃ N, ∀ fuel ≥ N, emitAreaPortals w off nums fuel = some r

theorem floodAreas_mono {w : AreaMap} {c : Nat} : ∀ (fuel v : Nat) (s s' : AreaState), floodAreas w c fuel v s = some s' →
    floodAreas w c (fuel + 1) v s = some s' := by
  intro fuel
  induction fuel with
  | zero => intro v s s' h; simp [floodAreas] at h
  | succ fuel ih =>
    have hfold : ∀ (L : List Nat) (s s' : AreaState), L.foldlM (fun s u => floodAreas w c fuel u s) s = some s' →
        L.foldlM (fun s u => floodAreas w c (fuel + 1) u s) s = some s' := by
      intro L
      induction L with
      | nil => intro s s' h; exact h
      | cons x L ihL =>
        intro s s' h
        rw [List.foldlM_cons] at h ⊢
        cases hx : floodAreas w c fuel x s with
        | none => rw [hx] at h; simp at h
        | some s1 =>
          rw [hx] at h
          rw [ih x s s1 hx]
          exact ihL s1 s' h
    intro v s s' h
    unfold floodAreas at h ⊢
    by_cases h1 : inAreaPortal w.contents v = true
    · rw [if_pos h1] at h ⊢; exact h
    · rw [if_neg h1] at h ⊢
      by_cases h2 : s.area v ≠ 0
      · rw [if_pos h2] at h ⊢; exact h
      · rw [if_neg h2] at h ⊢; exact hfold _ _ _ h

theorem findAreas_mono {w : AreaMap} {fuel : Nat} : ∀ (vs : List Nat) (s r : AreaState × Nat), findAreas w fuel vs s = some r →
    findAreas w (fuel + 1) vs s = some r := by
  intro vs
  induction vs with
  | nil => intro s r h; exact h
  | cons v vs ih =>
    rintro ⟨s, c⟩ r h
    simp only [findAreas] at h ⊢
    by_cases h1 : s.area v ≠ 0
    · rw [if_pos h1] at h ⊢; exact ih _ _ h
    · rw [if_neg h1] at h ⊢
      by_cases h2 : Q2.isAnySolid (w.contents v) = true
      · rw [if_pos h2] at h ⊢; exact ih _ _ h
      · rw [if_neg h2] at h ⊢
        by_cases h3 : w.occupied v = 0
        · rw [if_pos h3] at h ⊢; exact ih _ _ h
        · rw [if_neg h3] at h ⊢
          by_cases h4 : inAreaPortal w.contents v = true
          · rw [if_pos h4] at h ⊢; exact ih _ _ h
          · rw [if_neg h4] at h ⊢
            cases h5 : floodAreas w (c + 1) fuel v s with
            | none => rw [h5] at h; simp at h
            | some s1 =>
              rw [h5] at h
              rw [floodAreas_mono _ _ _ _ h5]
              exact ih _ _ h

theorem areaInv_init (w : AreaMap) : AreaInv w ⟨fun _ => 0, fun _ => (0, 0)⟩ 0 where
  low := fun _ h => absurd rfl h
  rep := fun i h0 h1 => by omega
  closed := fun _ h => absurd rfl h
  portals := fun e => Or.inl ⟨rfl, fun i ⟨h0, u, v, p, _, _, _, h, _⟩ => by simp only at h; omega⟩

theorem emit_master {w : AreaMap} (hw : AreaWellFormed w) (nums : List Nat) :
    ∃ s c, AreaInv w s c ∧ (∀ v, Start w v → s.area v ≠ 0) ∧ AreasEnd w false nums
      ⟨setPortalAreas w s.portalareas w.leafs s.area, s.portalareas, c,
        (emitAreas (nums.zipIdx.map fun x => (x.1, s.portalareas x.2)) 1 c ([⟨0, 0⟩], [⟨0, 0⟩])).1,
        (emitAreas (nums.zipIdx.map fun x => (x.1, s.portalareas x.2)) 1 c ([⟨0, 0⟩], [⟨0, 0⟩])).2, nums⟩ := by
  obtain ⟨s, c, h1, h2, -, h3⟩ := findAreas_ok hw (fuel := w.leafs.length + 1) (by omega) w.leafs _ 0 (fun _ h => h) (areaInv_init w)
  refine ⟨s, c, h2, fun v hv => h3 v hv.1 hv, w.leafs.length + 1, ?_⟩
  intro fuel hf
  have : ∀ k, findAreas w (w.leafs.length + 1 + k) w.leafs (⟨fun _ => 0, fun _ => (0, 0)⟩, 0) = some (s, c) := by
    intro k
    induction k with
    | zero => exact h1
    | succ k ih => exact findAreas_mono _ _ _ ih
  have h4 := this (fuel - (w.leafs.length + 1))
  rw [show w.leafs.length + 1 + (fuel - (w.leafs.length + 1)) = fuel by omega] at h4
  unfold emitAreaPortals
  rw [if_neg (by simp)]
  rw [h4]

theorem areasEnd_unique {w : AreaMap} {off : Bool} {nums : List Nat} {r r' : AreaResult} (h : AreasEnd w off nums r)
    (h' : AreasEnd w off nums r') : r = r' := by
  obtain ⟨N, h⟩ := h
  obtain ⟨N', h'⟩ := h'
  have h1 := h (N + N') (by omega)
  rw [h' (N + N') (by omega)] at h1
  exact (Option.some.inj h1).symm

/-- The area a leaf got, for leafs that are not in an area portal. -/
theorem area_plain {w : AreaMap} {s : AreaState} {v : Nat} (h : ¬ InPortal (w.contents v)) :
    setPortalAreas w s.portalareas w.leafs s.area v = s.area v := by
  rw [setPortalAreas_spec, if_neg]
  rintro ⟨-, h1, -⟩
  apply h
  rw [h1]
  decide

/-- **C54.** The search for areas ends. Leafs outside area portals get an area exactly if they are connected, without
crossing solid or area portals, to a leaf that an entity reaches; two of them have the same area exactly if they are
connected in this way; and the areas are numbered from 1 to `count`, all of them in use. -/
theorem areas_partition {w : AreaMap} (hw : AreaWellFormed w) (nums : List Nat) :
    ∃ r, AreasEnd w false nums r ∧
      (∀ v, ¬ InPortal (w.contents v) →
        (r.area v ≠ 0 ↔ ∃ u, Start w u ∧ Reaches (AreaOpen w.contents) w.portals u v)) ∧
      (∀ u v, ¬ InPortal (w.contents u) → ¬ InPortal (w.contents v) → r.area u ≠ 0 →
        (r.area u = r.area v ↔ Reaches (AreaOpen w.contents) w.portals u v)) ∧
      (∀ v, ¬ InPortal (w.contents v) → r.area v ≤ r.count) ∧
      ∀ i, 0 < i → i ≤ r.count → ∃ v, Start w v ∧ r.area v = i := by
  obtain ⟨s, c, hi, hs, hend⟩ := emit_master hw nums
  refine ⟨_, hend, ?_, ?_, ?_, ?_⟩
  · intro v hv
    simp only
    rw [area_plain hv]
    constructor
    · intro h
      obtain ⟨r, h1, h2, h3⟩ := hi.rep (s.area v) (by omega) (hi.low v h).1
      exact ⟨r, h1, h3 v rfl⟩
    · rintro ⟨u, h1, h2⟩
      rw [reaches_area hi h2 (hs u h1)]
      exact hs u h1
  · intro u v hu hv
    simp only
    rw [area_plain hu, area_plain hv]
    intro h
    constructor
    · intro heq
      obtain ⟨r, h1, h2, h3⟩ := hi.rep (s.area u) (by omega) (hi.low u h).1
      exact reaches_trans (reaches_symm (h3 u rfl)) (h3 v heq.symm)
    · intro hr
      exact (reaches_area hi hr h).symm
  · intro v hv
    simp only
    rw [area_plain hv]
    by_cases h : s.area v = 0
    · omega
    · exact (hi.low v h).1
  · intro i h0 h1
    obtain ⟨r, h2, h3, -⟩ := hi.rep i h0 h1
    refine ⟨r, h2, ?_⟩
    simp only
    rw [area_plain h2.2.2.2]
    exact h3

theorem beside_plain {w : AreaMap} {s : AreaState} : (fun e => Beside w (setPortalAreas w s.portalareas w.leafs s.area) e) =
    fun e => Beside w s.area e := by
  funext e i
  unfold Beside
  apply propext
  constructor
  · rintro ⟨h0, u, v, p, h1, h2, h3, h4, h5, h6, h7⟩
    exact ⟨h0, u, v, p, h1, h2, h3, by rw [area_plain h6] at h4; exact h4, h5, h6, h7⟩
  · rintro ⟨h0, u, v, p, h1, h2, h3, h4, h5, h6, h7⟩
    exact ⟨h0, u, v, p, h1, h2, h3, by rw [area_plain h6]; exact h4, h5, h6, h7⟩

/-- **C83, the areas of an area portal.** The two areas of an area portal are the first two of the areas beside it. A
leaf whose contents are just those of an area portal gets the first of them; other leafs of area portals get none. -/
theorem areas_of_portal {w : AreaMap} (hw : AreaWellFormed w) (nums : List Nat) :
    ∃ r, AreasEnd w false nums r ∧
      (∀ e, FirstTwo (Beside w r.area e) (r.portalareas e)) ∧
      (∀ v ∈ w.leafs, w.contents v = AREAPORTAL → ∀ e, EntityOf (w.brushes v) e → r.area v = (r.portalareas e).1) ∧
      (∀ v, InPortal (w.contents v) → (w.contents v ≠ AREAPORTAL ∨ ¬ ∃ e, EntityOf (w.brushes v) e) → r.area v = 0) := by
  obtain ⟨s, c, hi, hs, hend⟩ := emit_master hw nums
  have hzero : ∀ v, InPortal (w.contents v) → s.area v = 0 := by
    intro v hv
    by_contra h
    exact (hi.low v h).2 hv
  refine ⟨_, hend, ?_, ?_, ?_⟩
  · intro e
    have h1 := hi.portals e
    have h2 := congrFun (beside_plain (w := w) (s := s)) e
    simp only at h2 ⊢
    rw [h2]
    exact h1
  · intro v hv hc e he
    simp only
    rw [setPortalAreas_spec, if_pos ⟨hv, hc, hzero v (by rw [hc]; decide)⟩, (areaEntity_some _ _).2 he]
    rfl
  · intro v hv h
    simp only
    rw [setPortalAreas_spec]
    by_cases hx : v ∈ w.leafs ∧ w.contents v = AREAPORTAL ∧ s.area v = 0
    · rw [if_pos hx]
      have h' := h.resolve_left (fun h => h hx.2.1)
      cases he : areaEntity (w.brushes v) with
      | none => rfl
      | some e => exact absurd ⟨e, (areaEntity_some _ _).1 he⟩ h'
    · rw [if_neg hx]; exact hzero v hv

theorem firstTwo_ne {P : Nat → Prop} {a : Nat × Nat} (h : FirstTwo P a) (h' : a.1 = a.2) : a.1 = 0 := by
  rcases h with ⟨rfl, -⟩ | ⟨x, rfl, -⟩ | ⟨h, -⟩
  · rfl
  · exact h'
  · omega

theorem pairwise_zip {nums : List Nat} {f : Nat → Nat × Nat} (h : nums.Pairwise fun x y => x ≠ 0 → x ≠ y) :
    (nums.zipIdx.map fun x => (x.1, f x.2)).Pairwise fun x y => x.1 ≠ 0 → x.1 ≠ y.1 := by
  have h1 : (nums.zipIdx.map fun x => (x.1, f x.2)).map (·.1) = nums := by
    rw [List.map_map]
    have : ((fun x : Nat × Nat × Nat => x.1) ∘ fun x : Nat × Nat => (x.1, f x.2)) = fun x => x.1 := rfl
    rw [this]
    exact List.zipIdx_map_fst 0 nums
  have h2 : ((nums.zipIdx.map fun x => (x.1, f x.2)).map (·.1)).Pairwise fun x y => x ≠ 0 → x ≠ y := by rw [h1]; exact h
  exact List.pairwise_map.1 h2

/-- **C83, the records.** If the area portals have different numbers, the file holds one record for each area from 0 to
`count`, and the record of area `i` refers to exactly the area portals that bound the area, each once, with the area on
the other side. The list of area portals holds nothing else but an empty record at the front. -/
theorem area_records {w : AreaMap} (hw : AreaWellFormed w) {nums : List Nat}
    (hn : nums.Pairwise fun x y => x ≠ 0 → x ≠ y) :
    ∃ r, AreasEnd w false nums r ∧ r.dareas.length = r.count + 1 ∧ r.dareas[0]? = some ⟨0, 0⟩ ∧
      (∀ i, 0 < i → i ≤ r.count → ∃ d, r.dareas[i]? = some d ∧
        (r.dareaportals.drop d.first).take d.num = Records i (nums.zipIdx.map fun x => (x.1, r.portalareas x.2))) ∧
      r.dareaportals = ⟨0, 0⟩ ::
        ((List.range' 1 r.count).map fun i => Records i (nums.zipIdx.map fun x => (x.1, r.portalareas x.2))).flatten := by
  obtain ⟨s, c, hi, hs, hend⟩ := emit_master hw nums
  have hd : ∀ e ∈ nums.zipIdx.map fun x => (x.1, s.portalareas x.2), e.2.1 = e.2.2 → e.2.1 = 0 := by
    intro e he
    obtain ⟨x, -, rfl⟩ := List.mem_map.1 he
    exact firstTwo_ne (hi.portals x.2)
  obtain ⟨h1, l, h2, h3, h4⟩ := emitAreas_eq (pairwise_zip (f := s.portalareas) hn) hd c 1 [⟨0, 0⟩] [⟨0, 0⟩] (by omega) (by simp)
    (fun r hr => Or.inl (List.mem_singleton.1 hr))
  refine ⟨_, hend, ?_, ?_, ?_, ?_⟩
  · simp only; rw [h2]; simp [h3]
  · simp only; rw [h2]; rfl
  · intro i h0 hic
    simp only at hic ⊢
    obtain ⟨d, h5, h6⟩ := h4 (i - 1) (by omega)
    refine ⟨d, ?_, ?_⟩
    · rw [h2]
      obtain ⟨j, rfl⟩ : ∃ j, i = j + 1 := ⟨i - 1, by omega⟩
      simpa using h5
    · rw [h6, show 1 + (i - 1) = i by omega]
  · simp only; rw [h1]; rfl

/-- **C83, both sides.** Records come in pairs: area `i` lists a portal to area `j` exactly if area `j` lists the same
portal to area `i`. -/
theorem records_symm {w : AreaMap} (hw : AreaWellFormed w) (nums : List Nat) :
    ∃ r, AreasEnd w false nums r ∧ ∀ i j n, 0 < i → 0 < j →
      ((⟨n, j⟩ ∈ Records i (nums.zipIdx.map fun x => (x.1, r.portalareas x.2))) ↔
        (⟨n, i⟩ ∈ Records j (nums.zipIdx.map fun x => (x.1, r.portalareas x.2)))) := by
  obtain ⟨s, c, hi, hs, hend⟩ := emit_master hw nums
  refine ⟨_, hend, ?_⟩
  have key : ∀ i j n, 0 < i → 0 < j → (⟨n, j⟩ ∈ Records i (nums.zipIdx.map fun x => (x.1, s.portalareas x.2))) →
      (⟨n, i⟩ ∈ Records j (nums.zipIdx.map fun x => (x.1, s.portalareas x.2))) := by
    intro i j n h0 h0' h
    obtain ⟨num, a, hm, hnum, h⟩ := mem_records.1 h
    obtain ⟨x, hx, hxa⟩ := List.mem_map.1 hm
    simp only [Prod.mk.injEq] at hxa
    have hne := firstTwo_ne (hi.portals x.2)
    rw [hxa.2] at hne
    rw [mem_records]
    refine ⟨num, a, hm, hnum, ?_⟩
    rcases h with ⟨h1, h2⟩ | ⟨h1, h2, h3⟩
    · injection h2 with h2 h3
      subst h2
      right
      refine ⟨?_, h3.symm, by rw [h1]⟩
      intro h4
      have := hne (by omega)
      omega
    · injection h3 with h3 h4
      subst h3
      left
      exact ⟨h4.symm, by rw [h2]⟩
  exact fun i j n h0 h0' => ⟨key i j n h0 h0', key j i n h0' h0⟩

/-- **C83, leaking maps.** After a leak, or in a region, there is a single area, no area portal has records, and the
entities lose their portal numbers. -/
theorem areas_off (w : AreaMap) (nums : List Nat) : ∃ r, AreasEnd w true nums r ∧ r.dareas = [⟨0, 0⟩, ⟨0, 0⟩] ∧
    r.dareaportals = [⟨0, 0⟩] ∧ (∀ n ∈ r.nums, n = 0) ∧ r.nums.length = nums.length ∧ ∀ v, r.area v = 0 :=
  ⟨_, ⟨0, fun _ _ => by unfold emitAreaPortals; rw [if_pos rfl]⟩, rfl, rfl, by simp, by simp, fun _ => rfl⟩

/-- **C54 needs the marks of a fill from the inside.** If no leaf carries the mark of a fill from occupied leafs, as with
-nofill, no leaf outside area portals gets an area and the file has no area but the empty one, although the map may be
sealed. -/
theorem areas_none {w : AreaMap} (hw : AreaWellFormed w) (h : ∀ v, w.occupied v = 0) (nums : List Nat) :
    ∃ r, AreasEnd w false nums r ∧ r.count = 0 ∧ (∀ v, ¬ InPortal (w.contents v) → r.area v = 0) := by
  obtain ⟨r, h1, h2, -, -, h5⟩ := areas_partition hw nums
  refine ⟨r, h1, ?_, ?_⟩
  · by_contra hc
    obtain ⟨v, h6, -⟩ := h5 1 (by omega) (by omega)
    exact h6.2.1 (h v)
  · intro v hv
    by_contra hc
    obtain ⟨u, h6, -⟩ := (h2 v hv).1 hc
    exact h6.2.1 (h u)

/-- The portals of a tree (C78) satisfy the hypotheses. -/
theorem areaWellFormed_of_tree {W : Type} (ops : Ops W) {t : PTree} (hn : (ids t).Nodup) {outside : Nat}
    (ho : outside ∉ ids t) (sides : List (Bool × W)) {out : List (BuildPortal W)}
    (hout : makeTreePortals ops false t (headnodePortals t.id outside sides) = .ok out)
    {contents : Nat → Contents} (hc : contents outside = solidContents) (occupied : Nat → Int)
    (brushes : Nat → List (Option Nat)) :
    AreaWellFormed ⟨ends false t, toPortals out, outside, contents, occupied, brushes⟩ := by
  obtain ⟨out', h1, h2⟩ := tree_portals ops hn ho sides
  rw [hout] at h1
  cases h1
  refine ⟨?_, by simp only [hc]; decide⟩
  intro p hp
  obtain ⟨q, hq, rfl⟩ := List.mem_map.1 hp
  rcases h2 q hq with hj | ⟨-, ⟨a, b⟩ | ⟨a, b⟩⟩
  · exact ⟨Or.inl (joins_ne hn hj).1, Or.inl (joins_ne hn hj).2.1⟩
  · exact ⟨Or.inl a, Or.inr b⟩
  · exact ⟨Or.inr a, Or.inl b⟩

/-! ## An example -/

/-- Two rooms (leafs 0 and 2) with the area portal of entity 1 (leaf 1) between them, a side room (leaf 3) that opens to
leaf 2, a wall (leaf 4), and the outside (leaf 9). -/
def twoRooms : AreaMap where
  leafs := [0, 1, 2, 3, 4]
  portals := [⟨0, 1, some 10⟩, ⟨1, 2, some 11⟩, ⟨2, 3, some 12⟩, ⟨4, 0, some 13⟩, ⟨9, 4, none⟩, ⟨3, 9, none⟩]
  outside := 9
  contents := fun v => if v = 1 then AREAPORTAL else if v = 4 ∨ v = 9 then SOLID else 0
  occupied := fun v => if v ≤ 3 then 1 else 0
  brushes := fun v => if v = 1 then [none, some 1] else [none]

theorem twoRooms_wf : AreaWellFormed twoRooms :=
  ⟨by decide +kernel, by unfold Solid; decide +kernel⟩

/-- Non-vacuity: the rooms get areas 1 and 2, the area portal joins them. -/
example : (emitAreaPortals twoRooms false [0, 1] 6).map
    (fun r => ([0, 1, 2, 3, 4].map r.area, r.portalareas 1, r.dareas, r.dareaportals)) =
    some ([1, 1, 2, 2, 0], (1, 2), [⟨0, 0⟩, ⟨1, 1⟩, ⟨1, 2⟩], [⟨0, 0⟩, ⟨1, 2⟩, ⟨1, 1⟩]) := by decide +kernel

end Verif.Flood
