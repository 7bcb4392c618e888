import Verif.Contents.Lemmas

/-!
C34–C40: contents conversion, priority, combination, see-through and the mirror flag.
-/

namespace Verif.Contents

open Verif

/-- **C34.**  The six Quake leaf contents survive conversion to internal flags and back; every
other native value is rejected. -/
theorem q1_native_roundtrip (n : Int) :
    (n ∈ [(-1 : Int), -2, -3, -4, -5, -6] →
      ∃ c, Q1.fromNative n = .ok c ∧ Q1.toNative c = .ok n)
    ∧ (n ∉ [(-1 : Int), -2, -3, -4, -5, -6] → Q1.fromNative n = .error) := by
  constructor
  · intro h
    simp only [List.mem_cons, List.not_mem_nil, or_false] at h
    rcases h with rfl | rfl | rfl | rfl | rfl | rfl <;> exact ⟨_, rfl, by decide +kernel⟩
  · intro h
    simp only [List.mem_cons, List.not_mem_nil, or_false, not_or] at h
    obtain ⟨h1, h2, h3, h4, h5, h6⟩ := h
    simp [Q1.fromNative, h1, h2, h3, h4, h5, h6]

example : Q1.fromNative (-3) = .ok WATER ∧ Q1.toNative WATER = .ok (-3) := by decide +kernel
example : Q1.fromNative 7 = .error := by decide +kernel

/-- **C35.**  Every 32-bit Quake II contents value survives conversion to internal flags and
back. -/
theorem q2_native_roundtrip (n : BitVec 32) : Q2.toNative (Q2.fromNative n) = .ok n := by
  have ht : ∀ i ∈ Q2.throwsOf Q2.toNativeStmts,
      i < 64 ∧ (Q2.fromNative n).getLsbD i = false := by
    intro i hi
    have hi' : i = 1 ∨ i = 2 ∨ i = 13 := by
      simpa [Q2.throwsOf, Q2.toNativeStmts] using hi
    refine ⟨by omega, ?_⟩
    rw [Q2.fromNative_bit]
    rcases hi' with rfl | rfl | rfl <;> simp [Q2.fromNativeTable]
  obtain ⟨r, h1, h2⟩ := Q2.toNativeRun_ok (Q2.fromNative n) Q2.toNativeStmts
    (by decide) ht 0#32
  rw [Q2.toNative, h1]
  congr 1
  apply BitVec.eq_of_getLsbD_eq
  intro k hk
  rw [h2]
  have hall : k ∈ List.range 32 := by simpa using hk
  -- every native bit is written by exactly one statement, from an internal bit read from exactly
  -- that native bit
  have key : ∀ k ∈ List.range 32, ∃ i, (i, k) ∈ Q2.mapsOf Q2.toNativeStmts ∧
      (∀ p ∈ Q2.mapsOf Q2.toNativeStmts, p.2 = k → p.1 = i) ∧
      (k, i) ∈ Q2.fromNativeTable ∧ (∀ p ∈ Q2.fromNativeTable, p.2 = i → p.1 = k) := by
    intro k hk
    have aux : ∀ k ∈ List.range 32, ∃ i ∈ List.range 64, (i, k) ∈ Q2.mapsOf Q2.toNativeStmts ∧
        (∀ p ∈ Q2.mapsOf Q2.toNativeStmts, p.2 = k → p.1 = i) ∧
        (k, i) ∈ Q2.fromNativeTable ∧ (∀ p ∈ Q2.fromNativeTable, p.2 = i → p.1 = k) := by
      decide +kernel
    obtain ⟨i, _, h⟩ := aux k hk
    exact ⟨i, h⟩
  obtain ⟨i, m1, m2, f1, f2⟩ := key k hall
  simp only [BitVec.getLsbD_zero, Bool.false_or]
  rw [Bool.eq_iff_iff, List.any_eq_true]
  constructor
  · rintro ⟨p, hp, hc⟩
    simp only [Bool.and_eq_true, decide_eq_true_eq] at hc
    have := m2 p hp hc.2
    rw [this, Q2.fromNative_bit, List.any_eq_true] at hc
    obtain ⟨⟨q, hq, hq'⟩, _⟩ := hc
    simp only [Bool.and_eq_true, decide_eq_true_eq] at hq'
    rw [← f2 q hq hq'.2]; exact hq'.1
  · intro h
    refine ⟨(i, k), m1, ?_⟩
    simp only [decide_true, Bool.and_true]
    rw [Q2.fromNative_bit, List.any_eq_true]
    exact ⟨(k, i), f1, by simp [h]⟩

/-- **C35**, rejection: internal flags with no Quake II meaning are never written silently. -/
theorem q2_native_rejects (c : Contents)
    (h : tst c (SKY ||| DETAIL_WALL ||| ILLUSIONARY_VISBLOCKER) = true) :
    Q2.toNative c = .error := by
  simp only [SKY, DETAIL_WALL, ILLUSIONARY_VISBLOCKER, tst_or_right, Bool.or_eq_true] at h
  rcases h with (h | h) | h <;> rw [tst_bit _ _ (by decide)] at h <;>
    exact Q2.toNativeRun_error c _ _ (by decide) (by decide) h _

example : Q2.toNative (Q2.fromNative 0xD8000021#32) = .ok 0xD8000021#32 := by decide +kernel
example : Q2.fromNative 0xD8000021#32 ≠ 0#64 := by decide +kernel
example : Q2.toNative (SKY ||| WATER) = .error := by decide +kernel

/-- The visible types from strongest to weakest. -/
def visiblePriority : List Contents :=
  [SOLID, SKY, DETAIL_WALL, WINDOW, AUX, LAVA, SLIME, WATER, MIST]

/-- **C36.**  The visible contents of a volume is the first type of the priority list present in
it, or empty if there is none. -/
theorem visible_contents_is_strongest (c : Contents) :
    visibleContents c = (visiblePriority.find? (fun m => tst c m)).getD EMPTY := by
  unfold visibleContents visibleIndex visiblePriority
  iterate 10 (unfold visibleIndexFrom)
  simp only [lastVisibleIndex, SOLID, SKY, DETAIL_WALL, WINDOW, AUX, LAVA, SLIME, WATER, MIST,
    List.find?_cons, List.find?_nil]
  simp only [Nat.zero_le, Nat.zero_add, Nat.reduceAdd, Nat.reduceLeDiff, if_true, Nat.le_refl,
    if_false]
  repeat' (split <;> try rfl)
  all_goals simp_all

/-- **C36**, as an order statement: a visible type is the result exactly when it is present and no
stronger one is. -/
theorem visible_contents_iff (c : Contents) (k : Nat) (hk : k ≤ 8) :
    visibleContents c = bit k ↔
      c.getLsbD k = true ∧ ∀ j, j < k → c.getLsbD j = false := by
  unfold visibleContents visibleIndex
  have inj : ∀ i, i ≤ 8 → bit i = bit k → i = k := by
    intro i hi h
    have := congrArg (fun b => b.getLsbD k) h
    simp only [getLsbD_bit _ _ (show k < 64 by omega), getLsbD_bit _ _ (show i < 64 by omega)] at this
    simpa using this
  cases h : visibleIndexFrom c 0 with
  | none =>
    have h' := (visibleIndexFrom_none c 0).mp h
    constructor
    · intro e
      have := congrArg (fun b => b.getLsbD k) e
      simp only [getLsbD_bit _ _ (show k < 64 by omega)] at this
      simp at this
    · rintro ⟨e, _⟩
      rw [h' k (by omega) hk] at e; cases e
  | some i =>
    obtain ⟨_, h2, h3, h4⟩ := (visibleIndexFrom_some c 0 i).mp h
    constructor
    · intro e
      have := inj i h2 e; subst this
      exact ⟨h3, fun j hj => h4 j (by omega) hj⟩
    · rintro ⟨e1, e2⟩
      have : i = k := by
        rcases Nat.lt_trichotomy i k with hlt | heq | hgt
        · rw [e2 i hlt] at h3; cases h3
        · exact heq
        · rw [h4 k (by omega) hgt] at e1; cases e1
      rw [this]

example : visibleContents (WATER ||| WINDOW ||| DETAIL) = WINDOW := by decide +kernel
example : visibleContents (DETAIL ||| PLAYERCLIP) = EMPTY := by decide +kernel

/-! ### C37 -/

theorem Q1.combine_comm (a b : Contents) : Q1.combine a b = Q1.combine b a := by
  simp only [Q1.combine, Bool.or_comm, BitVec.or_comm]

theorem Q1.combine_assoc (a b c : Contents) :
    Q1.combine (Q1.combine a b) c = Q1.combine a (Q1.combine b c) := by
  have hs : Q1.isSolid SOLID = true := by decide +kernel
  have hk : Q1.isSolid SKY = false := by decide +kernel
  have hk' : Q1.isSky SKY = true := by decide +kernel
  have ho : ∀ x y, Q1.isSolid x = false → Q1.isSolid y = false →
      Q1.isSolid (x ||| y) = false := by
    intro x y hx hy
    simp only [Q1.isSolid, tst_or_left] at *
    revert hx hy
    generalize tst x SOLID = p; generalize tst x DETAIL = q
    generalize tst y SOLID = r; generalize tst y DETAIL = s
    revert p q r s; decide
  have hy : ∀ x y, Q1.isSky (x ||| y) = (Q1.isSky x || Q1.isSky y) := fun x y => by
    simp [Q1.isSky, tst_or_left]
  unfold Q1.combine
  cases ha : Q1.isSolid a <;> cases hb : Q1.isSolid b <;> cases hc : Q1.isSolid c <;>
  cases ka : Q1.isSky a <;> cases kb : Q1.isSky b <;> cases kc : Q1.isSky c <;>
    simp_all [BitVec.or_assoc]

theorem Q2.combine_comm (a b : Contents) : Q2.combine a b = Q2.combine b a := by
  simp only [Q2.combine, Bool.or_comm, BitVec.or_comm]

theorem Q2.combine_assoc (a b c : Contents) :
    Q2.combine (Q2.combine a b) c = Q2.combine a (Q2.combine b c) := by
  have hs : Q2.isSolid SOLID = true := by decide +kernel
  have ho : ∀ x y, Q2.isSolid x = false → Q2.isSolid y = false →
      Q2.isSolid (x ||| y) = false := by
    intro x y hx hy
    simp only [Q2.isSolid, tst_or_left] at *
    revert hx hy
    generalize tst x SOLID = p; generalize tst x DETAIL = q
    generalize tst y SOLID = r; generalize tst y DETAIL = s
    revert p q r s; decide
  unfold Q2.combine
  cases ha : Q2.isSolid a <;> cases hb : Q2.isSolid b <;> cases hc : Q2.isSolid c <;>
    simp_all [BitVec.or_assoc]

theorem foldl_perm {f : Contents → Contents → Contents} (hc : ∀ a b, f a b = f b a)
    (ha : ∀ a b c, f (f a b) c = f a (f b c)) {l₁ l₂ : List Contents} (h : l₁.Perm l₂)
    (init : Contents) : l₁.foldl f init = l₂.foldl f init := by
  induction h generalizing init with
  | nil => rfl
  | cons x _ ih => exact ih _
  | swap x y l => simp only [List.foldl_cons]; rw [ha, hc y x, ← ha]
  | trans _ _ ih1 ih2 => rw [ih1, ih2]

/-- **C37**, leafs: the contents of a leaf does not depend on the order of the brushes in it, in
either game. -/
theorem leaf_contents_order_independent {l₁ l₂ : List Contents} (h : l₁.Perm l₂) :
    leafContents Q1.combine l₁ = leafContents Q1.combine l₂
    ∧ leafContents Q2.combine l₁ = leafContents Q2.combine l₂ :=
  ⟨foldl_perm Q1.combine_comm Q1.combine_assoc h _, foldl_perm Q2.combine_comm Q2.combine_assoc h _⟩

/-- **C37**, repetition: counting a brush twice changes nothing. -/
theorem leaf_contents_repeat (l : List Contents) (b : Contents) (h : b ∈ l) :
    leafContents Q1.combine (b :: l) = leafContents Q1.combine l
    ∧ leafContents Q2.combine (b :: l) = leafContents Q2.combine l := by
  have gen : ∀ (f : Contents → Contents → Contents), (∀ a b, f a b = f b a) →
      (∀ a b c, f (f a b) c = f a (f b c)) → (∀ a b, f (f a b) b = f a b) →
      leafContents f (b :: l) = leafContents f l := by
    intro f hc ha hi
    obtain ⟨l', hp⟩ : ∃ l', l.Perm (b :: l') := by
      obtain ⟨s, t, rfl⟩ := List.append_of_mem h
      exact ⟨s ++ t, List.perm_middle⟩
    unfold leafContents
    rw [foldl_perm hc ha (List.Perm.cons b hp), foldl_perm hc ha hp]
    simp only [List.foldl_cons]
    rw [hi]
  refine ⟨gen _ Q1.combine_comm Q1.combine_assoc ?_, gen _ Q2.combine_comm Q2.combine_assoc ?_⟩
  · intro a b
    rw [Q1.combine_assoc]
    have h1 : Q1.isSolid SOLID = true := by decide +kernel
    have h2 : Q1.isSolid SKY = false := by decide +kernel
    have h3 : Q1.isSky SKY = true := by decide +kernel
    unfold Q1.combine
    cases ha : Q1.isSolid a <;> cases hb : Q1.isSolid b <;> cases ka : Q1.isSky a <;>
      cases kb : Q1.isSky b <;> simp_all
  · intro a b
    rw [Q2.combine_assoc]
    have h1 : Q2.isSolid SOLID = true := by decide +kernel
    unfold Q2.combine
    cases ha : Q2.isSolid a <;> cases hb : Q2.isSolid b <;> simp_all

/-- What the contents of a leaf is, said without folding: structural solid wins over everything,
then (in Quake) sky, otherwise all flags are kept. -/
def LeafContentsSpec (hasSky : Bool) (l : List Contents) (r : Contents) : Prop :=
  let structural := fun c => tst c SOLID = true ∧ tst c DETAIL = false
  ((∃ c ∈ l, structural c) → r = SOLID)
  ∧ ((¬∃ c ∈ l, structural c) → hasSky = true → (∃ c ∈ l, tst c SKY = true) → r = SKY)
  ∧ ((¬∃ c ∈ l, structural c) → (hasSky = false ∨ ¬∃ c ∈ l, tst c SKY = true) →
      ∀ k, r.getLsbD k = l.any (fun c => c.getLsbD k))

theorem isSolid_iff (c : Contents) :
    Q1.isSolid c = true ↔ (tst c SOLID = true ∧ tst c DETAIL = false) := by
  unfold Q1.isSolid; simp

/-- **C37**, meaning: the combined contents is determined by which types are present. -/
theorem q1_leaf_contents_meaning (l : List Contents) :
    LeafContentsSpec true l (leafContents Q1.combine l) := by
  unfold LeafContentsSpec leafContents
  have h1 : Q1.isSolid SOLID = true := by decide +kernel
  have h2 : Q1.isSolid SKY = false := by decide +kernel
  have h3 : Q1.isSky SKY = true := by decide +kernel
  have ho : ∀ x y, Q1.isSolid x = false → Q1.isSolid y = false →
      Q1.isSolid (x ||| y) = false := by
    intro x y hx hy
    simp only [Q1.isSolid, tst_or_left] at *
    revert hx hy
    generalize tst x SOLID = p; generalize tst x DETAIL = q
    generalize tst y SOLID = r; generalize tst y DETAIL = s
    revert p q r s; decide
  have solidFold : ∀ l, List.foldl Q1.combine SOLID l = SOLID := by
    intro l; induction l with
    | nil => rfl
    | cons b l ih => rw [List.foldl_cons, show Q1.combine SOLID b = SOLID by simp [Q1.combine, h1]]; exact ih
  have skyFold : ∀ l, (∀ c ∈ l, Q1.isSolid c = false) → List.foldl Q1.combine SKY l = SKY := by
    intro l; induction l with
    | nil => intro _; rfl
    | cons b l ih =>
      intro h
      rw [List.foldl_cons, show Q1.combine SKY b = SKY by
        simp [Q1.combine, h2, h3, h b (List.mem_cons_self ..)]]
      exact ih (fun c hc => h c (List.mem_cons_of_mem _ hc))
  have main : ∀ (l : List Contents) (init : Contents), Q1.isSolid init = false →
      ((∃ c ∈ l, Q1.isSolid c = true) → l.foldl Q1.combine init = SOLID)
      ∧ ((∀ c ∈ l, Q1.isSolid c = false) → (∃ c ∈ l, Q1.isSky c = true) →
          l.foldl Q1.combine init = SKY)
      ∧ ((∀ c ∈ l, Q1.isSolid c = false) → Q1.isSky init = false →
          (∀ c ∈ l, Q1.isSky c = false) →
          ∀ k, (l.foldl Q1.combine init).getLsbD k
            = (init.getLsbD k || l.any (fun c => c.getLsbD k))) := by
    intro l
    induction l with
    | nil => intro init _; simp
    | cons b l ih =>
      intro init hi
      cases hb : Q1.isSolid b
      · cases hsk : (Q1.isSky init || Q1.isSky b)
        · have e : Q1.combine init b = init ||| b := by simp [Q1.combine, hi, hb, hsk]
          simp only [Bool.or_eq_false_iff] at hsk
          obtain ⟨i1, i2, i3⟩ := ih (init ||| b) (ho _ _ hi hb)
          refine ⟨?_, ?_, ?_⟩
          · rintro ⟨c, hc, hs⟩
            rw [List.foldl_cons, e]
            rcases List.mem_cons.mp hc with rfl | hc
            · rw [hb] at hs; cases hs
            · exact i1 ⟨c, hc, hs⟩
          · rintro hall ⟨c, hc, hs⟩
            rw [List.foldl_cons, e]
            rcases List.mem_cons.mp hc with rfl | hc
            · rw [hsk.2] at hs; cases hs
            · exact i2 (fun c hc => hall c (List.mem_cons_of_mem _ hc)) ⟨c, hc, hs⟩
          · intro hall _ hk k
            rw [List.foldl_cons, e, i3 (fun c hc => hall c (List.mem_cons_of_mem _ hc))
              (by simp [Q1.isSky, tst_or_left] at *; exact hsk)
              (fun c hc => hk c (List.mem_cons_of_mem _ hc))]
            simp [Bool.or_assoc]
        · have e : Q1.combine init b = SKY := by simp [Q1.combine, hi, hb, hsk]
          refine ⟨?_, ?_, ?_⟩
          · rintro ⟨c, hc, hs⟩
            rw [List.foldl_cons, e]
            rcases List.mem_cons.mp hc with rfl | hc
            · rw [hb] at hs; cases hs
            · exact (ih SKY h2).1 ⟨c, hc, hs⟩
          · rintro hall _
            rw [List.foldl_cons, e]
            exact skyFold l (fun c hc => hall c (List.mem_cons_of_mem _ hc))
          · intro _ hk hall
            rw [hk, hall b (List.mem_cons_self ..)] at hsk; cases hsk
      · refine ⟨?_, ?_, ?_⟩
        · intro _
          rw [List.foldl_cons, show Q1.combine init b = SOLID by simp [Q1.combine, hb]]
          exact solidFold l
        · intro h; rw [h b (List.mem_cons_self ..)] at hb; cases hb
        · intro h; rw [h b (List.mem_cons_self ..)] at hb; cases hb
  obtain ⟨m1, m2, m3⟩ := main l EMPTY (by decide +kernel)
  have conv : (¬∃ c ∈ l, tst c SOLID = true ∧ tst c DETAIL = false) →
      ∀ c ∈ l, Q1.isSolid c = false := by
    intro h c hc
    cases hs : Q1.isSolid c
    · rfl
    · exact absurd ⟨c, hc, (isSolid_iff c).mp hs⟩ h
  refine ⟨?_, ?_, ?_⟩
  · rintro ⟨c, hc, hs⟩; exact m1 ⟨c, hc, (isSolid_iff c).mpr hs⟩
  · intro h _ hk; exact m2 (conv h) hk
  · intro h hk k
    have := m3 (conv h) (by decide +kernel) (by
      intro c hc
      rcases hk with hk | hk
      · cases hk
      · cases hs : Q1.isSky c
        · rfl
        · exact absurd ⟨c, hc, hs⟩ hk) k
    simpa using this

/-- **C37**, meaning, Quake II: no sky type. -/
theorem q2_leaf_contents_meaning (l : List Contents) :
    LeafContentsSpec false l (leafContents Q2.combine l) := by
  unfold LeafContentsSpec leafContents
  have h1 : Q2.isSolid SOLID = true := by decide +kernel
  have ho : ∀ x y, Q2.isSolid x = false → Q2.isSolid y = false →
      Q2.isSolid (x ||| y) = false := by
    intro x y hx hy
    simp only [Q2.isSolid, tst_or_left] at *
    revert hx hy
    generalize tst x SOLID = p; generalize tst x DETAIL = q
    generalize tst y SOLID = r; generalize tst y DETAIL = s
    revert p q r s; decide
  have solidFold : ∀ l, List.foldl Q2.combine SOLID l = SOLID := by
    intro l; induction l with
    | nil => rfl
    | cons b l ih => rw [List.foldl_cons, show Q2.combine SOLID b = SOLID by simp [Q2.combine, h1]]; exact ih
  have main : ∀ (l : List Contents) (init : Contents), Q2.isSolid init = false →
      ((∃ c ∈ l, Q2.isSolid c = true) → l.foldl Q2.combine init = SOLID)
      ∧ ((∀ c ∈ l, Q2.isSolid c = false) →
          ∀ k, (l.foldl Q2.combine init).getLsbD k
            = (init.getLsbD k || l.any (fun c => c.getLsbD k))) := by
    intro l
    induction l with
    | nil => intro init _; simp
    | cons b l ih =>
      intro init hi
      cases hb : Q2.isSolid b
      · have e : Q2.combine init b = init ||| b := by simp [Q2.combine, hi, hb]
        obtain ⟨i1, i2⟩ := ih (init ||| b) (ho _ _ hi hb)
        refine ⟨?_, ?_⟩
        · rintro ⟨c, hc, hs⟩
          rw [List.foldl_cons, e]
          rcases List.mem_cons.mp hc with rfl | hc
          · rw [hb] at hs; cases hs
          · exact i1 ⟨c, hc, hs⟩
        · intro hall k
          rw [List.foldl_cons, e, i2 (fun c hc => hall c (List.mem_cons_of_mem _ hc))]
          simp [Bool.or_assoc]
      · refine ⟨?_, ?_⟩
        · intro _
          rw [List.foldl_cons, show Q2.combine init b = SOLID by simp [Q2.combine, hb]]
          exact solidFold l
        · intro h; rw [h b (List.mem_cons_self ..)] at hb; cases hb
  obtain ⟨m1, m2⟩ := main l EMPTY (by decide +kernel)
  refine ⟨?_, ?_, ?_⟩
  · rintro ⟨c, hc, hs⟩; exact m1 ⟨c, hc, (isSolid_iff c).mpr hs⟩
  · intro _ h; cases h
  · intro h _ k
    have := m2 (by
      intro c hc
      cases hs : Q2.isSolid c
      · rfl
      · exact absurd ⟨c, hc, (isSolid_iff c).mp hs⟩ h) k
    simpa using this

example : leafContents Q1.combine [WATER, Q1.detailFence, WATER] = WATER ||| WINDOW ||| DETAIL := by
  decide +kernel
example : leafContents Q1.combine [Q1.detailSolid, SKY, LAVA] = SKY := by decide +kernel

theorem clusterContents_bit (a b : Contents) (k : Nat) :
    (Q1.clusterContents a b).getLsbD k
      = if k = 0 then (a.getLsbD 0 && b.getLsbD 0) else (a.getLsbD k || b.getLsbD k) := by
  simp only [Q1.clusterContents, SOLID, tst_bit _ _ (show 0 < 64 by decide)]
  by_cases hk : k < 64
  · have hb : (bit 0).getLsbD k = decide (0 = k) := getLsbD_bit _ _ (by decide)
    by_cases h0 : k = 0
    · subst h0
      simp only [decide_true] at hb
      cases h1 : a.getLsbD 0 <;> cases h2 : b.getLsbD 0 <;>
        simp [-BitVec.getLsbD_eq_getElem, BitVec.getLsbD_and, BitVec.getLsbD_or,
          BitVec.getLsbD_not, hb, h1, h2]
    · have hb' : (bit 0).getLsbD k = false := by rw [hb]; simp; omega
      split <;> simp [-BitVec.getLsbD_eq_getElem, BitVec.getLsbD_and, BitVec.getLsbD_or,
          BitVec.getLsbD_not, hb', hk]
  · have e : ∀ x : Contents, x.getLsbD k = false := fun x => BitVec.getLsbD_of_ge _ _ (by omega)
    have : k ≠ 0 := by omega
    simp [e, this]

/-- **C37**, clusters: a cluster is solid exactly when all its leafs are, and has any other flag
exactly when some leaf has it — however its leafs are arranged in the tree. -/
theorem cluster_contents_meaning (t : LeafTree) (k : Nat) :
    (t.clusterContents Q1.clusterContents).getLsbD k
      = if k = 0 then t.leaves.all (fun c => c.getLsbD 0) else t.leaves.any (fun c => c.getLsbD k) := by
  induction t with
  | leaf c => by_cases h : k = 0 <;> simp [LeafTree.clusterContents, LeafTree.leaves, h]
  | node a b iha ihb =>
    simp only [LeafTree.clusterContents, LeafTree.leaves, clusterContents_bit]
    by_cases h : k = 0
    · subst h; simp at iha ihb ⊢; rw [iha, ihb]
    · simp [h] at iha ihb ⊢; rw [iha, ihb]

theorem cluster_contents_games (t : LeafTree) :
    t.clusterContents Q2.clusterContents = t.clusterContents Q1.clusterContents := rfl

/-- **C37**, clusters: order independence. -/
theorem cluster_contents_order_independent (t u : LeafTree) (h : t.leaves.Perm u.leaves) :
    t.clusterContents Q1.clusterContents = u.clusterContents Q1.clusterContents
    ∧ t.clusterContents Q2.clusterContents = u.clusterContents Q2.clusterContents := by
  have : t.clusterContents Q1.clusterContents = u.clusterContents Q1.clusterContents := by
    apply ext_bits
    intro k _
    rw [cluster_contents_meaning, cluster_contents_meaning]
    by_cases hk : k = 0
    · simp only [hk, if_true]
      rw [Bool.eq_iff_iff, List.all_eq_true, List.all_eq_true]
      exact ⟨fun g c hc => g c (h.mem_iff.mpr hc), fun g c hc => g c (h.mem_iff.mp hc)⟩
    · simp only [hk, if_false]
      rw [Bool.eq_iff_iff, List.any_eq_true, List.any_eq_true]
      exact ⟨fun ⟨c, hc, g⟩ => ⟨c, h.mem_iff.mp hc, g⟩, fun ⟨c, hc, g⟩ => ⟨c, h.mem_iff.mpr hc, g⟩⟩
  exact ⟨this, by rw [cluster_contents_games, cluster_contents_games]; exact this⟩

example : (LeafTree.node (.leaf (SOLID ||| DETAIL)) (.node (.leaf EMPTY) (.leaf WATER))).clusterContents
    Q1.clusterContents = WATER ||| DETAIL := by decide +kernel

/-! ### C38, C39 -/

/-- **C38**, symmetry. -/
theorem see_through_symmetric (a b : Contents) (transwater : Bool) :
    Q1.canSeeThrough a b transwater = Q1.canSeeThrough b a transwater
    ∧ Q2.canSeeThrough a b = Q2.canSeeThrough b a := by
  have hx : ∀ x y : Contents, x ^^^ y = y ^^^ x := BitVec.xor_comm
  constructor
  · simp only [Q1.canSeeThrough]
    rw [Bool.or_comm (tst a SOLID), hx a b,
      hx (if (tst a DETAIL || if transwater = true then tst a ALL_LIQUIDS else false) = true then 0#64 else a)]
  · simp only [Q2.canSeeThrough]
    rw [Bool.or_comm (tst a SOLID), hx a b,
      hx (if (tst a TRANSLUCENT || tst a DETAIL) = true then 0#64 else a)]

/-- **C38**, solids block. -/
theorem see_through_solid_blocks (a b : Contents) (transwater : Bool)
    (h : tst a SOLID = true ∨ tst b SOLID = true) :
    Q1.canSeeThrough a b transwater = false ∧ Q2.canSeeThrough a b = false := by
  have : (tst a SOLID || tst b SOLID) = true := by simpa using h
  simp [Q1.canSeeThrough, Q2.canSeeThrough, this]

/-- **C38**, equal visible contents never block (unless solid). -/
theorem see_through_same_visible (a b : Contents) (transwater : Bool)
    (ha : a.getLsbD 0 = false) (hv : ∀ k, k ≤ 8 → a.getLsbD k = b.getLsbD k) :
    Q1.canSeeThrough a b transwater = true ∧ Q2.canSeeThrough a b = true := by
  have hb : b.getLsbD 0 = false := by rw [← hv 0 (by omega)]; exact ha
  have hx : tst (a ^^^ b) ALL_VISIBLE = false := by
    cases h : tst (a ^^^ b) ALL_VISIBLE
    · rfl
    · obtain ⟨k, h1, h2⟩ := (xor_tst_visible a b).mp h
      exact absurd (hv k h1) h2
  simp only [Q1.canSeeThrough, Q2.canSeeThrough, SOLID, tst_bit _ _ (show 0 < 64 by decide),
    ha, hb, hx]
  simp

example : Q1.canSeeThrough (WATER ||| PLAYERCLIP) WATER false = true := by decide +kernel
example : Q1.canSeeThrough WATER LAVA false = false := by decide +kernel

/-- A volume vis may see into: not solid, and either nothing visible in it, or detail, or (Quake)
a liquid with `-transwater` / (Quake II) marked translucent. -/
def Q1SeeThrough (c : Contents) (transwater : Bool) : Prop :=
  tst c SOLID = false ∧
    (tst c ALL_VISIBLE = false ∨ tst c DETAIL = true ∨ (transwater = true ∧ tst c ALL_LIQUIDS = true))

/-- Quake II reading of `Q1SeeThrough`. -/
def Q2SeeThrough (c : Contents) : Prop :=
  tst c SOLID = false ∧
    (tst c ALL_VISIBLE = false ∨ tst c DETAIL = true ∨ tst c TRANSLUCENT = true)

theorem tst_visible_xor_zero_left (b : Contents) : tst (0#64 ^^^ b) ALL_VISIBLE = tst b ALL_VISIBLE := by
  simp

theorem xor_not_visible (a b : Contents) (ha : tst a ALL_VISIBLE = false)
    (hb : tst b ALL_VISIBLE = false) : tst (a ^^^ b) ALL_VISIBLE = false := by
  cases h : tst (a ^^^ b) ALL_VISIBLE
  · rfl
  · obtain ⟨k, h1, h2⟩ := (xor_tst_visible a b).mp h
    have vis : ∀ x : Contents, tst x ALL_VISIBLE = false → x.getLsbD k = false := by
      intro x hx
      cases hk : x.getLsbD k
      · rfl
      · have := (xor_tst_visible x 0#64).mpr ⟨k, h1, by simp [hk]⟩
        simp [hx] at this
    exact absurd (by rw [vis a ha, vis b hb]) h2

/-- **C39**, Quake: a boundary between two see-through volumes never blocks; a boundary between an
opaque liquid (no detail, no `-transwater`) and a volume with nothing visible always does. -/
theorem q1_opaque_liquids_block (a b : Contents) :
    (∀ tw, Q1SeeThrough a tw → Q1SeeThrough b tw → Q1.canSeeThrough a b tw = true)
    ∧ (tst a ALL_LIQUIDS = true → tst a DETAIL = false → tst b ALL_VISIBLE = false →
        Q1.canSeeThrough a b false = false) := by
  constructor
  · rintro tw ⟨sa, ha⟩ ⟨sb, hb⟩
    have z : ∀ x : Contents, (tst x ALL_VISIBLE = false ∨ tst x DETAIL = true
        ∨ (tw = true ∧ tst x ALL_LIQUIDS = true)) →
        tst (if (tst x DETAIL || if tw = true then tst x ALL_LIQUIDS else false) = true
          then 0#64 else x) ALL_VISIBLE = false := by
      intro x hx
      cases hc : (tst x DETAIL || if tw = true then tst x ALL_LIQUIDS else false)
      · simp only [Bool.false_eq_true, if_false]
        rcases hx with hx | hx | ⟨h1, h2⟩
        · exact hx
        · simp [hx] at hc
        · simp [h1, h2] at hc
      · simp only [if_true, tst_zero_left]
    have za := z a ha
    have zb := z b hb
    simp only [Q1.canSeeThrough, sa, sb, xor_not_visible _ _ za zb]
    simp
  · intro ha hd hb
    have hav : ∃ k, k ≤ 8 ∧ a.getLsbD k = true := by
      simp only [ALL_LIQUIDS, tst_or_right, tst_bit _ _ (show 5 < 64 by decide),
        tst_bit _ _ (show 6 < 64 by decide), tst_bit _ _ (show 7 < 64 by decide),
        Bool.or_eq_true] at ha
      rcases ha with (h | h) | h
      · exact ⟨5, by decide, h⟩
      · exact ⟨6, by decide, h⟩
      · exact ⟨7, by decide, h⟩
    obtain ⟨k, hk, hak⟩ := hav
    have vis : ∀ j, j ≤ 8 → b.getLsbD j = false := by
      intro j hj
      cases hbj : b.getLsbD j
      · rfl
      · have := (xor_tst_visible b 0#64).mpr ⟨j, hj, by simp [hbj]⟩
        simp [hb] at this
    have hx : tst (a ^^^ b) ALL_VISIBLE = true :=
      (xor_tst_visible a b).mpr ⟨k, hk, by simp [hak, vis k hk]⟩
    have hx0 : tst (a ^^^ 0#64) ALL_VISIBLE = true :=
      (xor_tst_visible a 0#64).mpr ⟨k, hk, by simp [hak]⟩
    have hne : a ^^^ b ≠ 0#64 := by
      intro h; rw [h] at hx; simp [tst] at hx
    have hne0 : a ^^^ 0#64 ≠ 0#64 := by
      intro h; rw [h] at hx0; simp [tst] at hx0
    simp only [Q1.canSeeThrough, hd, Bool.false_or, Bool.false_eq_true, if_false, hx]
    split
    · rfl
    · cases hbd : tst b DETAIL
      · simp [hne, hx]
      · simp only [Bool.true_or, if_true]
        simp only [Bool.not_true, Bool.false_eq_true, if_false, hx0, beq_iff_eq, hne0]

example : Q1SeeThrough (WATER ||| PLAYERCLIP) true ∧ Q1SeeThrough EMPTY true
    ∧ Q1.canSeeThrough (WATER ||| PLAYERCLIP) EMPTY true = true := by
  unfold Q1SeeThrough; decide +kernel
example : Q1.canSeeThrough WATER EMPTY false = false := by decide +kernel

/-- **C39**, Quake II: both halves of the property are FALSE of the code.  The last line of
`portal_can_see_through` returns `!= 0` where the Quake version (and the comment-free original)
needs `== 0`: opaque water next to air does not block vis, … -/
theorem q2_opaque_water_does_not_block :
    tst WATER ALL_LIQUIDS = true ∧ tst WATER DETAIL = false ∧ tst WATER TRANSLUCENT = false ∧
    Q2.canSeeThrough WATER EMPTY = true := by decide +kernel

/-- … and a detail window next to an empty volume that carries an invisible content flag (a player
clip brush not marked detail) blocks vis although both volumes are see-through. -/
theorem q2_see_through_volumes_block :
    Q2SeeThrough (WINDOW ||| TRANSLUCENT ||| DETAIL) ∧ Q2SeeThrough AREAPORTAL ∧
    Q2.canSeeThrough (WINDOW ||| TRANSLUCENT ||| DETAIL) AREAPORTAL = false := by
  unfold Q2SeeThrough; decide +kernel

/-- **C39**, Quake II, what does hold: two volumes each of which is detail or translucent, or has
no flag at all, never block each other. -/
theorem q2_see_through_partial (a b : Contents)
    (sa : tst a SOLID = false) (sb : tst b SOLID = false)
    (ha : a = 0#64 ∨ tst a DETAIL = true ∨ tst a TRANSLUCENT = true)
    (hb : b = 0#64 ∨ tst b DETAIL = true ∨ tst b TRANSLUCENT = true) :
    Q2.canSeeThrough a b = true := by
  have za : (if (tst a TRANSLUCENT || tst a DETAIL) = true then 0#64 else a) = 0#64 := by
    split
    · rfl
    · rename_i h
      rcases ha with ha | ha | ha
      · exact ha
      · simp [ha] at h
      · simp [ha] at h
  have zb : (if (tst b TRANSLUCENT || tst b DETAIL) = true then 0#64 else b) = 0#64 := by
    split
    · rfl
    · rename_i h
      rcases hb with hb | hb | hb
      · exact hb
      · simp [hb] at h
      · simp [hb] at h
  simp only [Q2.canSeeThrough, sa, sb, za, zb]
  simp

example : Q2.canSeeThrough (WATER ||| TRANSLUCENT) (MIST ||| DETAIL) = true := by decide +kernel

/-! ### C40 -/

/-- **C40.**  Whatever the flags were before, setting the mirror option is read back as set, and no
other flag changes. -/
theorem mirror_tristate (c : Contents) (v : Option Bool) :
    mirrorInside (setMirrored c v) = v
    ∧ ∀ k, k ≠ 15 → k ≠ 16 → (setMirrored c v).getLsbD k = c.getLsbD k := by
  have b15 : ∀ k, (bit 15).getLsbD k = decide (15 = k) := fun k => getLsbD_bit _ _ (by decide)
  have b16 : ∀ k, (bit 16).getLsbD k = decide (16 = k) := fun k => getLsbD_bit _ _ (by decide)
  refine ⟨?_, ?_⟩
  · match v with
    | none =>
      have h : tst (setMirrored c none) MIRROR_INSIDE_SET = false := by
        simp only [setMirrored, MIRROR_INSIDE, MIRROR_INSIDE_SET]
        rw [tst_andnot_bit _ _ _ (by decide), BitVec.getLsbD_or, b16]; simp
      simp only [mirrorInside, h]; rfl
    | some true =>
      have h : tst (setMirrored c (some true)) MIRROR_INSIDE_SET = true := by
        simp [setMirrored, tst_or_left, tst_self_bit]
      have h' : tst (setMirrored c (some true)) MIRROR_INSIDE = true := by
        simp [setMirrored, tst_or_left, tst_self_bit]
      simp only [mirrorInside, h, h']; rfl
    | some false =>
      have h : tst (setMirrored c (some false)) MIRROR_INSIDE_SET = true := by
        simp only [setMirrored, MIRROR_INSIDE, MIRROR_INSIDE_SET]
        rw [tst_andnot_bit _ _ _ (by decide), BitVec.getLsbD_or, b16, b15]; simp
      have h' : tst (setMirrored c (some false)) MIRROR_INSIDE = false := by
        simp only [setMirrored, MIRROR_INSIDE, MIRROR_INSIDE_SET]
        rw [tst_andnot_bit _ _ _ (by decide), b15]; simp
      simp only [mirrorInside, h, h']; rfl
  · intro k h15 h16
    have e15 : (bit 15).getLsbD k = false := by rw [b15]; simp; omega
    have e16 : (bit 16).getLsbD k = false := by rw [b16]; simp; omega
    match v with
    | none =>
      by_cases hk : k < 64
      · simp [-BitVec.getLsbD_eq_getElem, setMirrored, MIRROR_INSIDE, MIRROR_INSIDE_SET, e15, e16, hk]
      · rw [BitVec.getLsbD_of_ge _ _ (by omega), BitVec.getLsbD_of_ge _ _ (by omega)]
    | some true => simp [setMirrored, MIRROR_INSIDE, MIRROR_INSIDE_SET, e15, e16]
    | some false =>
      by_cases hk : k < 64
      · simp [-BitVec.getLsbD_eq_getElem, setMirrored, MIRROR_INSIDE, MIRROR_INSIDE_SET, e15, e16, hk]
      · rw [BitVec.getLsbD_of_ge _ _ (by omega), BitVec.getLsbD_of_ge _ _ (by omega)]

example : mirrorInside (setMirrored (WATER ||| MIRROR_INSIDE ||| MIRROR_INSIDE_SET) (some false))
    = some false := by decide +kernel

/-- The sibling option ("clips same type") is not tri-state: once suppressed it cannot be turned
back on or unset. -/
theorem clips_same_type_sticky (c : Contents) (v : Option Bool) (h : clipsSameType c = some false) :
    clipsSameType (setClipsSameType c v) = some false := by
  match v with
  | none => exact h
  | some true => exact h
  | some false =>
    simp only [clipsSameType, setClipsSameType, SUPPRESS_CLIPPING, tst_or_left,
      tst_self_bit _ _ (show 17 < 64 by decide) (show 17 < 64 by decide)]
    simp

example : clipsSameType (setClipsSameType (bit 17) (some true)) = some false := by decide +kernel

end Verif.Contents
