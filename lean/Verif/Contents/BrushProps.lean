import Verif.Contents.Lemmas
import Verif.Contents.Brush

/-!
C41: every leaf exported to Quake has a representable contents type.
-/

namespace Verif.Contents.Q1

open Verif Verif.Contents

/-- Invariant of Quake contents values: fence and wall flags come with the detail flag, the
auxiliary type is never used. -/
def Inv (c : Contents) : Prop :=
  (tst c WINDOW = true → tst c DETAIL = true) ∧ (tst c DETAIL_WALL = true → tst c DETAIL = true)
    ∧ tst c AUX = false

theorem Inv.or {a b : Contents} (ha : Inv a) (hb : Inv b) : Inv (a ||| b) := by
  unfold Inv at *
  simp only [tst_or_left, Bool.or_eq_true, Bool.or_eq_false_iff]
  obtain ⟨a1, a2, a3⟩ := ha
  obtain ⟨b1, b2, b3⟩ := hb
  exact ⟨fun h => h.elim (fun h => .inl (a1 h)) (fun h => .inr (b1 h)),
    fun h => h.elim (fun h => .inl (a2 h)) (fun h => .inr (b2 h)), a3, b3⟩

theorem inv_solid : Inv SOLID := by unfold Inv; decide +kernel
theorem inv_sky : Inv SKY := by unfold Inv; decide +kernel
theorem inv_empty : Inv EMPTY := by unfold Inv; decide +kernel
theorem inv_detailSolid : Inv detailSolid := by unfold Inv; decide +kernel

theorem Inv.combine {a b : Contents} (ha : Inv a) (hb : Inv b) : Inv (combine a b) := by
  unfold Q1.combine
  split
  · exact inv_solid
  · split
    · exact inv_sky
    · exact ha.or hb

theorem Inv.leaf {l : List Contents} (h : ∀ c ∈ l, Inv c) : Inv (leafContents Q1.combine l) := by
  unfold leafContents
  have : ∀ (l : List Contents) (init : Contents), Inv init → (∀ c ∈ l, Inv c) →
      Inv (l.foldl Q1.combine init) := by
    intro l
    induction l with
    | nil => intro i hi _; exact hi
    | cons b l ih =>
      intro i hi hall
      exact ih _ (hi.combine (hall b (List.mem_cons_self ..)))
        (fun c hc => hall c (List.mem_cons_of_mem _ hc))
  exact this l EMPTY inv_empty h

/-- Bits above the visible ones other than DETAIL do not matter for `Inv`. -/
theorem inv_of_bits {a b : Contents}
    (h : ∀ k ∈ [2, 3, 4, 14], a.getLsbD k = b.getLsbD k) (hb : Inv b) : Inv a := by
  have e2 := h 2 (by simp); have e3 := h 3 (by simp); have e4 := h 4 (by simp)
  have e14 := h 14 (by simp)
  unfold Inv at *
  simp only [WINDOW, DETAIL, DETAIL_WALL, AUX, tst_bit _ _ (show 2 < 64 by decide),
    tst_bit _ _ (show 3 < 64 by decide), tst_bit _ _ (show 4 < 64 by decide),
    tst_bit _ _ (show 14 < 64 by decide)] at hb ⊢
  rw [e2, e3, e4, e14]; exact hb

theorem inv_setMirrored {c : Contents} (h : Inv c) (v : Option Bool) : Inv (setMirrored c v) := by
  apply inv_of_bits _ h
  intro k hk
  have hk' : k = 2 ∨ k = 3 ∨ k = 4 ∨ k = 14 := by simpa using hk
  have b15 : (bit 15).getLsbD k = false := by rw [getLsbD_bit _ _ (by decide)]; simp; omega
  have b16 : (bit 16).getLsbD k = false := by rw [getLsbD_bit _ _ (by decide)]; simp; omega
  have hlt : k < 64 := by omega
  match v with
  | none => simp [-BitVec.getLsbD_eq_getElem, setMirrored, BitVec.getLsbD_and, BitVec.getLsbD_not,
      BitVec.getLsbD_or, b15, b16, hlt]
  | some true => simp [-BitVec.getLsbD_eq_getElem, setMirrored, BitVec.getLsbD_or, b15, b16]
  | some false => simp [-BitVec.getLsbD_eq_getElem, setMirrored, BitVec.getLsbD_and,
      BitVec.getLsbD_not, BitVec.getLsbD_or, b15, b16, hlt]

theorem inv_setClips {c : Contents} (h : Inv c) (v : Option Bool) : Inv (setClipsSameType c v) := by
  match v with
  | none => exact h
  | some true => exact h
  | some false => exact h.or (by unfold Inv; decide +kernel)

theorem inv_face (tex : List Char) : Inv (faceContents tex) := by
  unfold faceContents
  repeat' split
  all_goals (unfold Inv; decide +kernel)

/-- No fence or wall flag at all: true of contents read from the map, before entity classes. -/
def Plain (c : Contents) : Prop := tst c WINDOW = false ∧ tst c DETAIL_WALL = false ∧ tst c AUX = false

theorem plain_of_bits {a b : Contents}
    (h : ∀ k ∈ [2, 3, 4], a.getLsbD k = b.getLsbD k) (hb : Plain b) : Plain a := by
  have e2 := h 2 (by simp); have e3 := h 3 (by simp); have e4 := h 4 (by simp)
  unfold Plain at *
  simp only [WINDOW, DETAIL_WALL, AUX, tst_bit _ _ (show 2 < 64 by decide),
    tst_bit _ _ (show 3 < 64 by decide), tst_bit _ _ (show 4 < 64 by decide)] at hb ⊢
  rw [e2, e3, e4]; exact hb

theorem Plain.inv {c : Contents} (h : Plain c) : Inv c := by
  obtain ⟨h1, h2, h3⟩ := h
  exact ⟨by simp [h1], by simp [h2], h3⟩

theorem Plain.or {a b : Contents} (ha : Plain a) (hb : Plain b) : Plain (a ||| b) := by
  unfold Plain at *
  simp only [tst_or_left, ha, hb]; simp

theorem plain_base (faces : List (List Char)) : Plain (baseContents faces) := by
  induction faces with
  | nil => unfold Plain baseContents; decide +kernel
  | cons tex rest ih =>
    unfold baseContents
    split
    · exact ih
    · unfold faceContents
      repeat' split
      all_goals (unfold Plain; decide +kernel)

theorem plain_brush (tw : Bool) (b : MapBrush) : Plain (brushGetContents tw b) := by
  have h1 : Plain (setMirrored (baseContents b.faces) b.mirrorKey) := by
    apply plain_of_bits _ (plain_base b.faces)
    intro k hk
    have hk' : k = 2 ∨ k = 3 ∨ k = 4 := by simpa using hk
    have b15 : (bit 15).getLsbD k = false := by rw [getLsbD_bit _ _ (by decide)]; simp; omega
    have b16 : (bit 16).getLsbD k = false := by rw [getLsbD_bit _ _ (by decide)]; simp; omega
    have hlt : k < 64 := by omega
    match b.mirrorKey with
    | none => simp [-BitVec.getLsbD_eq_getElem, setMirrored, BitVec.getLsbD_and,
        BitVec.getLsbD_not, BitVec.getLsbD_or, b15, b16, hlt]
    | some true => simp [-BitVec.getLsbD_eq_getElem, setMirrored, BitVec.getLsbD_or, b15, b16]
    | some false => simp [-BitVec.getLsbD_eq_getElem, setMirrored, BitVec.getLsbD_and,
        BitVec.getLsbD_not, BitVec.getLsbD_or, b15, b16, hlt]
  have clips : ∀ {c : Contents}, Plain c → ∀ v, Plain (setClipsSameType c v) := by
    intro c h v
    match v with
    | none => exact h
    | some true => exact h
    | some false => exact h.or (by unfold Plain; decide +kernel)
  have h2 := clips h1 (b.noclipKey.map not)
  have h3 : Plain (if b.visblocker = true then
      setClipsSameType (setMirrored (baseContents b.faces) b.mirrorKey) (b.noclipKey.map not)
        ||| ILLUSIONARY_VISBLOCKER
      else setClipsSameType (setMirrored (baseContents b.faces) b.mirrorKey) (b.noclipKey.map not)) := by
    split
    · exact h2.or (by unfold Plain; decide +kernel)
    · exact h2
  unfold brushGetContents
  simp only
  revert h3
  generalize (if b.visblocker = true then _ else _) = c
  intro h3
  split
  · have : Plain DETAIL := by unfold Plain; decide +kernel
    exact h3.or this
  · exact h3

theorem plain_clearDetail {c : Contents} (h : Plain c) : Plain (clearDetail c) := by
  apply plain_of_bits _ h
  intro k hk
  have hk' : k = 2 ∨ k = 3 ∨ k = 4 := by simpa using hk
  have b14 : (bit 14).getLsbD k = false := by rw [getLsbD_bit _ _ (by decide)]; simp; omega
  have hlt : k < 64 := by omega
  simp [-BitVec.getLsbD_eq_getElem, clearDetail, BitVec.getLsbD_and, BitVec.getLsbD_not, b14, hlt]

theorem inv_detailStep {c : Contents} (h : Inv c) (hull : Option Nat) (cls : EntClass) :
    Inv (detailStep hull cls c) := by
  unfold detailStep
  split
  · split
    · unfold Inv; decide +kernel
    · unfold Inv; decide +kernel
    · unfold Inv; decide +kernel
    · unfold Inv; decide +kernel
    · exact h
  · exact h

theorem inv_adjust {o : Options} {hull : Option Nat} {cls : EntClass} {world hint : Bool}
    {c d : Contents} (hc : Inv c) (h : adjust o hull cls world hint c = some d) : Inv d := by
  have h1 : Inv (if hint then EMPTY else clipStep hull (detailStep hull cls c)) := by
    split
    · exact inv_empty
    · unfold clipStep
      split
      · exact inv_solid
      · exact inv_detailStep hc _ _
  have h2 : Inv (bmodelStep o world
      (if hint then EMPTY else clipStep hull (detailStep hull cls c))) := by
    unfold bmodelStep
    split
    · unfold Inv; decide +kernel
    · exact h1
  unfold adjust at h
  revert h h2
  generalize bmodelStep o world
      (if hint then EMPTY else clipStep hull (detailStep hull cls c)) = e
  intro h h2
  split at h
  · cases h
  · split at h
    · cases h
    · split at h
      · cases h
      · unfold hullStep at h
        split at h
        · split at h
          · cases h
          · cases h; exact inv_solid
        · cases h; exact h2

theorem inv_load {o : Options} {hull : Option Nat} {cls : EntClass} {world : Bool} {b : MapBrush}
    {c : Contents} (h : loadBrushContents o hull cls world b = .ok (some c)) : Inv c := by
  have hp := plain_brush o.transwater b
  have hi : Inv (if o.nodetail = true then clearDetail (brushGetContents o.transwater b)
      else brushGetContents o.transwater b) := by
    split
    · exact (plain_clearDetail hp).inv
    · exact hp.inv
  simp only [loadBrushContents] at h
  revert h hi
  generalize (if o.nodetail = true then clearDetail (brushGetContents o.transwater b)
      else brushGetContents o.transwater b) = c0
  generalize (if o.nodetail = true then EntClass.other else cls) = cls'
  intro h hi
  split at h
  · cases h
  · split at h
    · cases h
    · simp only [Outcome.ok.injEq, Option.map_eq_some_iff] at h
      obtain ⟨d, hd, rfl⟩ := h
      exact inv_setClips (inv_setMirrored (inv_adjust hi hd) _) _

theorem inv_leafOf {brushes : List Contents} (hb : ∀ c ∈ brushes, Inv c) {c : Contents}
    (h : LeafOf brushes c) : Inv c := by
  cases h with
  | built l hl => exact Inv.leaf (fun c hc => hb c (hl c hc))
  | filled => exact inv_solid
  | detailFilled => exact inv_detailSolid

/-- What a Quake leaf must be exported as, said directly: solid if it holds anything solid, a fence
or a wall; otherwise the strongest of sky, lava, slime, water in it; otherwise empty. -/
def exportSpec (c : Contents) : Int :=
  if tst c SOLID || tst c WINDOW || tst c DETAIL_WALL then -2
  else if tst c SKY then -6
  else if tst c LAVA then -5
  else if tst c SLIME then -4
  else if tst c WATER then -3
  else -1

theorem native_of_inv {c : Contents} (h : Inv c) :
    toNative (remapForExport c) = .ok (exportSpec c) := by
  obtain ⟨h1, h2, h3⟩ := h
  unfold remapForExport isDetailFence isDetailWall exportSpec
  by_cases hw : tst c WINDOW = true
  · rw [hw, h1 hw]
    simp only [Bool.and_true, Bool.true_or, Bool.or_true, if_true]
    decide +kernel
  by_cases hd : tst c DETAIL_WALL = true
  · rw [hd, h2 hd]
    simp only [Bool.and_true, Bool.or_true, if_true]
    decide +kernel
  have hw : tst c WINDOW = false := by simpa using hw
  have hd : tst c DETAIL_WALL = false := by simpa using hd
  have hcond : ¬ ((tst c DETAIL && tst c WINDOW || tst c DETAIL && tst c DETAIL_WALL) = true) := by
    simp [hw, hd]
  rw [if_neg hcond, hw, hd]
  have andnot : ∀ k, k < 64 → k ≠ 8 → tst (c &&& ~~~ MIST) (bit k) = tst c (bit k) := by
    intro k hk hk8
    rw [tst_andnot_bit _ _ _ hk, tst_bit _ _ hk, getLsbD_bit _ _ (by decide)]
    simp; omega
  have mist : tst (c &&& ~~~ MIST) MIST = false := by
    rw [tst_andnot_bit _ _ _ (by decide), getLsbD_bit _ _ (by decide)]; simp
  -- both remaining cases have the same tests, with mist cleared
  have gen : ∀ d : Contents, (∀ k, k < 64 → k ≠ 8 → tst d (bit k) = tst c (bit k)) →
      tst d MIST = false →
      toNative d = .ok (if tst c SOLID || false || false then -2 else if tst c SKY then -6
        else if tst c LAVA then -5 else if tst c SLIME then -4 else if tst c WATER then -3
        else -1) := by
    intro d e em
    unfold toNative
    rw [show tst d SOLID = tst c SOLID from e 0 (by decide) (by decide),
      show tst d SKY = tst c SKY from e 1 (by decide) (by decide),
      show tst d DETAIL_WALL = tst c DETAIL_WALL from e 2 (by decide) (by decide),
      show tst d WINDOW = tst c WINDOW from e 3 (by decide) (by decide),
      show tst d AUX = tst c AUX from e 4 (by decide) (by decide),
      show tst d LAVA = tst c LAVA from e 5 (by decide) (by decide),
      show tst d SLIME = tst c SLIME from e 6 (by decide) (by decide),
      show tst d WATER = tst c WATER from e 7 (by decide) (by decide), hw, hd, h3, em]
    cases tst c SOLID <;> cases tst c SKY <;> cases tst c LAVA <;> cases tst c SLIME <;>
      cases tst c WATER <;> rfl
  split
  · exact gen _ andnot mist
  · rename_i hm
    exact gen c (fun k _ _ => rfl) (by simpa using hm)

/-- **C41.**  Take any set of map brushes — any textures, entity classes, keys and options, for any
hull — whose contents was accepted, and any leaf of a tree built from them (including leafs later
filled).  Exporting the leaf never fails, and the exported type is the one `exportSpec` names: in
particular it is solid exactly when the leaf holds a solid, fence or wall brush. -/
theorem q1_leaf_export_representable (o : Options) (hull : Option Nat)
    (input : List (EntClass × Bool × MapBrush)) (brushes : List Contents)
    (hb : ∀ c ∈ brushes, ∃ i ∈ input, loadBrushContents o hull i.1 i.2.1 i.2.2 = .ok (some c))
    (leaf : Contents) (hl : LeafOf brushes leaf) :
    toNative (remapForExport leaf) = .ok (exportSpec leaf) :=
  native_of_inv (inv_leafOf (fun c hc => by
    obtain ⟨i, _, h⟩ := hb c hc
    exact inv_load h) hl)

/-- What a brush accepted for a clipping hull looks like: solid, with only the mirror and
same-type flags besides. -/
theorem clip_hull_brush_solid {o : Options} {h : Nat} (hh : h ≠ 0) {cls : EntClass} {world : Bool}
    {b : MapBrush} {c : Contents}
    (hc : loadBrushContents o (some h) cls world b = .ok (some c)) :
    tst c SOLID = true ∧ tst c DETAIL = false := by
  have key : ∀ v w, tst (setClipsSameType (setMirrored SOLID v) w) SOLID = true
      ∧ tst (setClipsSameType (setMirrored SOLID v) w) DETAIL = false := by
    intro v w
    match v, w with
    | none, none | none, some true | none, some false
    | some true, none | some true, some true | some true, some false
    | some false, none | some false, some true | some false, some false => decide +kernel
  simp only [loadBrushContents] at hc
  revert hc
  generalize (if o.nodetail = true then clearDetail (brushGetContents o.transwater b)
      else brushGetContents o.transwater b) = c0
  generalize (if o.nodetail = true then EntClass.other else cls) = cls'
  intro hc
  split at hc
  · cases hc
  · split at hc
    · cases hc
    · simp only [Outcome.ok.injEq, Option.map_eq_some_iff] at hc
      obtain ⟨d, hd, rfl⟩ := hc
      unfold adjust at hd
      revert hd
      generalize bmodelStep o world
        (if b.isHint then EMPTY else clipStep (some h) (detailStep (some h) cls' c0)) = e
      intro hd
      split at hd
      · cases hd
      · split at hd
        · cases hd
        · split at hd
          · cases hd
          · unfold hullStep at hd
            split at hd
            · split at hd
              · cases hd
              · cases hd; exact key _ _
            · rename_i hn; simp [hh] at hn

/-- **C41**, clipping hulls: leafs there are written without remapping
(`ExportClipNodes`, qbsp/writebsp.cc:114-136); the conversion never fails either, and a leaf is
solid exactly when some brush is in it or it was filled. -/
theorem q1_clip_leaf_export (o : Options) (h : Nat) (hh : h ≠ 0)
    (input : List (EntClass × Bool × MapBrush)) (brushes l : List Contents)
    (hb : ∀ c ∈ brushes, ∃ i ∈ input, loadBrushContents o (some h) i.1 i.2.1 i.2.2 = .ok (some c))
    (hl : ∀ c ∈ l, c ∈ brushes) :
    toNative (leafContents combine l) = .ok (if l = [] then -1 else -2) := by
  have hs : ∀ c ∈ l, isSolid c = true := by
    intro c hc
    obtain ⟨i, _, hi⟩ := hb c (hl c hc)
    obtain ⟨h1, h2⟩ := clip_hull_brush_solid hh hi
    simp [isSolid, h1, h2]
  match l, hs with
  | [], _ => decide +kernel
  | b :: l, hs =>
    have e : leafContents combine (b :: l) = SOLID := by
      unfold leafContents
      rw [List.foldl_cons]
      have : combine EMPTY b = SOLID := by
        simp [combine, hs b (List.mem_cons_self ..)]
      rw [this]
      have : ∀ l, List.foldl combine SOLID l = SOLID := by
        intro l; induction l with
        | nil => rfl
        | cons c l ih =>
          rw [List.foldl_cons, show combine SOLID c = SOLID by
            simp [combine, show isSolid SOLID = true by decide +kernel]]
          exact ih
      exact this l
    rw [e, if_neg (by simp)]; decide +kernel

/-- The options of a plain compile. -/
def defaultOptions : Options := ⟨false, false, false, false, false, false, false⟩

-- a fence brush with a mirror key in the world, in water: exported as solid
example :
    let fence : MapBrush := ⟨["{grate".toList], some true, none, false, false⟩
    let water : MapBrush := ⟨["*Water0".toList], none, none, false, false⟩
    loadBrushContents defaultOptions (some 0) .detailFence true fence
      = .ok (some (WINDOW ||| DETAIL ||| MIRROR_INSIDE ||| MIRROR_INSIDE_SET))
    ∧ loadBrushContents defaultOptions (some 0) .other true water = .ok (some WATER)
    ∧ toNative (remapForExport (leafContents combine
        [WINDOW ||| DETAIL ||| MIRROR_INSIDE ||| MIRROR_INSIDE_SET, WATER])) = .ok (-2) := by
  decide +kernel

-- without the export remapping the same leaf could not be written
example : toNative (leafContents combine [WINDOW ||| DETAIL, WATER]) = .error := by decide +kernel

example : loadBrushContents defaultOptions (some 1) .other true
    ⟨["clip".toList], none, none, false, false⟩ = .ok (some SOLID) := by decide +kernel

end Verif.Contents.Q1
