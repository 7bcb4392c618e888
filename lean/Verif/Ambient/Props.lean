import Verif.Ambient.Lemmas

/-!
C223: ambient sounds.
-/

namespace Verif.Ambient

open Classical in
/-- The levels written: each leaf after the first gets 255 for a sound that a face of some leaf it sees makes, and 0 else; the rest of the
leafs, and leafs that `vis` does not know, are kept. This holds for any order of the rounds, and with all sounds turned off. -/
theorem levels_value {b : Bsp} {o : Opts} {v : Vis} {order : List Nat} {leafs r : List Leaf} (ho : order.Perm (List.range v.leafs))
    (h : calcAmbientSounds b o v order leafs = .ok r) (k : Nat) :
    r[k]? = (leafs[k]?).map fun l => if 1 ≤ k ∧ k ≤ v.leafs then
      { l with ambient := fun a => if Spec.Hears b o v leafs (k - 1) l a then 255 else 0 } else l := by
  have hiff : (1 ≤ k ∧ k - 1 ∈ List.range v.leafs) ↔ (1 ≤ k ∧ k ≤ v.leafs) := by
    rw [List.mem_range]; omega
  unfold calcAmbientSounds at h
  by_cases hall : (o.noSky && o.noWater && o.noSlime && o.noLava) = true
  · rw [if_pos hall] at h
    rw [silence_ok h k]
    simp only [hiff]
    congr 1
    funext l
    by_cases hk : 1 ≤ k ∧ k ≤ v.leafs
    · rw [if_pos hk, if_pos hk]
      congr 1
      funext a
      rw [if_neg]
      rintro ⟨_, _, _, _, _, _, _, _, _, _, _, _, _, _, _, _, hm⟩
      simp only [Bool.and_eq_true] at hall
      obtain ⟨⟨⟨h1, h2⟩, h3⟩, h4⟩ := hall
      have h0 := (soundOf_iff o _ a).2 hm
      unfold soundOf at h0
      simp [h1, h2, h3, h4] at h0
    · rw [if_neg hk, if_neg hk]
  · rw [if_neg hall] at h
    rw [calcLeafs_ok h k]
    have hm : (k - 1 ∈ order) ↔ k - 1 ∈ List.range v.leafs := ho.mem_iff
    simp only [hm, hiff]
    rfl

theorem calcLeaf_congr {b : Bsp} {o : Opts} {v : Vis} {x y r : List Leaf} (h : Same x y) {i : Nat} (hr : calcLeaf b o v y i = .ok r) :
    ∃ r', calcLeaf b o v x i = .ok r' := by
  unfold calcLeaf at hr ⊢
  obtain ⟨l, hl, hr⟩ := Outcome.bind_eq_ok.1 hr
  obtain ⟨d, hd, hr⟩ := Outcome.bind_eq_ok.1 hr
  obtain ⟨am, hx⟩ := h.get (readAt_ok hl)
  have hlt : i + 1 < x.length := by
    by_contra hc
    rw [List.getElem?_eq_none (by omega)] at hx; cases hx
  refine ⟨x.set (i + 1) { l with ambient := level d }, ?_⟩
  rw [Outcome.readAt, hx]
  simp only [Outcome.ok_bind]
  rw [hearLeafs_congr b o v h i l am, hd]
  simp only [Outcome.ok_bind]
  rw [Outcome.writeAt, if_pos hlt]

theorem calcLeafs_runs {b : Bsp} {o : Opts} {v : Vis} (y : List Leaf) : ∀ (order : List Nat) (x : List Leaf), Same x y →
    ((∃ r, calcLeafs b o v order x = .ok r) ↔ ∀ i ∈ order, ∃ r, calcLeaf b o v y i = .ok r) := by
  intro order
  induction order with
  | nil =>
    intro x _
    exact ⟨fun _ i hi => absurd hi (by simp), fun _ => ⟨x, rfl⟩⟩
  | cons i t ih =>
    intro x hs
    have hset : ∀ m, calcLeaf b o v x i = .ok m → Same m y := by
      intro m hm
      obtain ⟨l, hl, rfl⟩ := calcLeaf_ok hm
      intro k
      rw [same_set hl _ k]
      exact hs k
    constructor
    · rintro ⟨r, hr⟩
      rw [calcLeafs] at hr
      obtain ⟨m, hm, hr⟩ := Outcome.bind_eq_ok.1 hr
      intro j hj
      rcases List.mem_cons.1 hj with rfl | hj
      · exact calcLeaf_congr hs.symm hm
      · exact ((ih m (hset m hm)).1 ⟨r, hr⟩) j hj
    · intro hall
      obtain ⟨r0, h0⟩ := hall i (by simp)
      obtain ⟨m, hm⟩ := calcLeaf_congr hs h0
      obtain ⟨r, hr⟩ := (ih m (hset m hm)).2 (fun j hj => hall j (List.mem_cons_of_mem _ hj))
      exact ⟨r, by rw [calcLeafs, hm, Outcome.ok_bind, hr]⟩

/-- Every order of the rounds gives the same leafs. -/
theorem any_order {b : Bsp} {o : Opts} {v : Vis} {order order' : List Nat} {leafs r : List Leaf} (ho : order.Perm (List.range v.leafs))
    (ho' : order'.Perm (List.range v.leafs)) (h : calcAmbientSounds b o v order leafs = .ok r) :
    calcAmbientSounds b o v order' leafs = .ok r := by
  have hrun : ∃ r', calcAmbientSounds b o v order' leafs = .ok r' := by
    unfold calcAmbientSounds at h ⊢
    by_cases hall : (o.noSky && o.noWater && o.noSlime && o.noLava) = true
    · rw [if_pos hall] at h ⊢
      exact ⟨r, h⟩
    · rw [if_neg hall] at h ⊢
      have hs : Same leafs leafs := fun _ => rfl
      refine (calcLeafs_runs leafs order' leafs hs).2 (fun i hi => ?_)
      exact (calcLeafs_runs leafs order leafs hs).1 ⟨r, h⟩ i ((ho'.trans ho.symm).mem_iff.1 hi)
  obtain ⟨r', hr'⟩ := hrun
  rw [hr']
  congr 1
  apply List.ext_getElem?
  intro k
  rw [levels_value ho' hr' k, levels_value ho h k]

/-- Slime is never heard as such: its sound is that of water. -/
theorem slime_silent {b : Bsp} {o : Opts} {v : Vis} {order : List Nat} {leafs r : List Leaf} (ho : order.Perm (List.range v.leafs))
    (h : calcAmbientSounds b o v order leafs = .ok r) (k : Nat) (hk : 1 ≤ k ∧ k ≤ v.leafs) (l : Leaf) (hl : r[k]? = some l) :
    l.ambient 2 = 0 := by
  rw [levels_value ho h k] at hl
  rcases hx : leafs[k]? with _ | l0
  · rw [hx] at hl; cases hl
  · rw [hx] at hl
    simp only [Option.map_some, if_pos hk] at hl
    injection hl with hl
    subst hl
    exact if_neg (not_hears_slime _ _ _ _ _ _)

def leafAt (x : ℚ) (first num : Nat) : Leaf := ⟨0, first, num, fun _ => x, fun _ => x + 1, fun _ => 7⟩
def seaAt (x : ℚ) : Bsp := ⟨[0], [⟨0, fun _ => x, fun _ => x + 1⟩], [0], ["*Water1".toList]⟩
def allSeen : Vis := ⟨[3, 3], 1, 2, false⟩
def loud : Opts := ⟨false, false, false, false⟩

/-- The levels should fall with the distance of the sound, but do not: the distance is computed and thrown away, so that water is as loud
at any distance as beside the leaf. -/
theorem far_is_loud (x : ℚ) : ∃ r, calcAmbientSounds (seaAt x) loud allSeen [0, 1] [leafAt 0 0 0, leafAt 0 0 0, leafAt x 0 1] = .ok r ∧
    r.map (fun l => (List.finRange 4).map l.ambient) = [[7, 7, 7, 7], [255, 0, 0, 0], [255, 0, 0, 0]] := by
  have hl : ∀ d : Fin 4 → ℚ, d = (fun j => if j = 0 then 1 / 4 else 1020) → (List.finRange 4).map (level d) = [255, 0, 0, 0] := by
    rintro d rfl
    decide +kernel
  have hs : soundOf loud "*Water1".toList = some 0 := by decide +kernel
  have hf : ∀ l, hearFaces (seaAt x) loud l [0] (fun _ => 1020) = .ok (fun j => if j = 0 then 1 / 4 else 1020) := by
    intro l
    show hearFace _ _ _ _ _ >>= _ = _
    have : hearFace (seaAt x) loud l 0 (fun _ => 1020) = .ok (fun j => if j = 0 then 1 / 4 else 1020) := by
      show (match soundOf loud "*Water1".toList with
        | none => Outcome.ok (fun _ : Fin 4 => (1020 : ℚ))
        | some a => .ok (if (1 / 4 : ℚ) < 1020 then fun j : Fin 4 => if j = a then 1 / 4 else 1020 else (fun _ : Fin 4 => 1020))) = _
      rw [hs]
      dsimp only
      rw [if_pos (by norm_num)]
    rw [this]
    rfl
  have hL : ∀ (i : Nat) (l m : Leaf), (i = 0 ∨ i = 1) → m.num = 0 →
      hearLeafs (seaAt x) loud allSeen [leafAt 0 0 0, m, leafAt x 0 1] i l (List.range 2) (fun _ => 1020) =
      .ok (fun j => if j = 0 then 1 / 4 else 1020) := by
    intro i l m hi hm
    have s0 : sees allSeen i l 0 = .ok true := by rcases hi with rfl | rfl <;> rfl
    have s1 : sees allSeen i l 1 = .ok true := by rcases hi with rfl | rfl <;> rfl
    rw [show List.range 2 = [0, 1] from rfl, hearLeafs, s0, Outcome.ok_bind, if_neg (by decide)]
    rw [show Outcome.readAt [leafAt 0 0 0, m, leafAt x 0 1] (0 + 1) = .ok m from rfl, Outcome.ok_bind, hm]
    rw [show List.map (m.first + ·) (List.range 0) = [] from rfl, hearFaces, Outcome.ok_bind, hearLeafs, s1, Outcome.ok_bind,
      if_neg (by decide)]
    rw [show Outcome.readAt [leafAt 0 0 0, m, leafAt x 0 1] (1 + 1) = .ok (leafAt x 0 1) from rfl, Outcome.ok_bind]
    show hearFaces (seaAt x) loud l [0] _ >>= _ = _
    rw [hf]
    rfl
  refine ⟨[leafAt 0 0 0, { leafAt 0 0 0 with ambient := level (fun j => if j = 0 then 1 / 4 else 1020) },
    { leafAt x 0 1 with ambient := level (fun j => if j = 0 then 1 / 4 else 1020) }], ?_, ?_⟩
  · unfold calcAmbientSounds
    rw [if_neg (by decide), calcLeafs, calcLeaf]
    rw [show Outcome.readAt [leafAt 0 0 0, leafAt 0 0 0, leafAt x 0 1] (0 + 1) = .ok (leafAt 0 0 0) from rfl, Outcome.ok_bind]
    rw [show allSeen.leafs = 2 from rfl, hL 0 _ _ (Or.inl rfl) rfl, Outcome.ok_bind]
    rw [show ∀ z, Outcome.writeAt [leafAt 0 0 0, leafAt 0 0 0, leafAt x 0 1] (0 + 1) z = .ok [leafAt 0 0 0, z, leafAt x 0 1] from
      fun z => rfl, Outcome.ok_bind, calcLeafs, calcLeaf]
    rw [show ∀ z : Leaf, Outcome.readAt [leafAt 0 0 0, z, leafAt x 0 1] (1 + 1) = .ok (leafAt x 0 1) from fun z => rfl, Outcome.ok_bind]
    rw [show allSeen.leafs = 2 from rfl, hL 1 _ _ (Or.inr rfl) rfl, Outcome.ok_bind]
    rw [show ∀ z y : Leaf, Outcome.writeAt [leafAt 0 0 0, y, leafAt x 0 1] (1 + 1) z = .ok [leafAt 0 0 0, y, z] from
      fun z y => rfl, Outcome.ok_bind, calcLeafs]
  · simp only [List.map_cons, List.map_nil]
    rw [hl _ rfl]
    rfl

/-- With shared rows, a leaf that has no cluster makes `vis` read before the rows. -/
theorem no_cluster_ub (b : Bsp) (o : Opts) (v : Vis) (l w : Leaf) (t : List Leaf) (hv : v.clusters = true) (hn : 0 < v.leafs)
    (hb : 0 < v.rowBytes) (hc : l.cluster = -1) : calcLeaf b o v (w :: l :: t) 0 = .ub := by
  unfold calcLeaf
  rw [show Outcome.readAt (w :: l :: t) (0 + 1) = .ok l from rfl, Outcome.ok_bind]
  obtain ⟨n, hn'⟩ : ∃ n, v.leafs = n + 1 := ⟨v.leafs - 1, by omega⟩
  rw [hn', List.range_succ_eq_map, hearLeafs]
  have : sees v 0 l 0 = .ub := by
    unfold sees
    dsimp only
    rw [hv, if_pos rfl, hc, if_pos]
    simp only [Nat.zero_div, Nat.cast_zero, add_zero]
    omega
  rw [this]
  rfl

end Verif.Ambient
