import Verif.Faces.OutlineLemmas
import Mathlib.Data.List.Basic
import Mathlib.Order.Basic

/-! Lemmas about the triangulation of minimum weight. -/

namespace Verif.Faces

open Spec

/-- The triangulation that the table of choices describes. -/
def Follows (K : Nat → Nat → Option Nat) : Nat → Nat → Triang → Prop
  | i, j, .edge => j = i + 1 ∧ K i j = none
  | i, j, .tri k l r => i < k ∧ k < j ∧ K i j = some k ∧ Follows K i k l ∧ Follows K k j r

theorem follows_below {K : Nat → Nat → Option Nat} {i j : Nat} {t : Triang} (h : Follows K i j t) : Below i j t := by
  induction t generalizing i j with
  | edge => exact h.1
  | tri k l r ihl ihr => exact ⟨h.1, h.2.1, ihl h.2.2.2.1, ihr h.2.2.2.2⟩

theorem below_lt {i j : Nat} {t : Triang} (h : Below i j t) : i < j := by
  cases t with
  | edge => have : j = i + 1 := h; omega
  | tri k l r => exact Nat.lt_trans h.1 h.2.1

theorem follows_congr {K K' : Nat → Nat → Option Nat} {i j : Nat} {t : Triang}
    (hk : ∀ a b, i ≤ a → b ≤ j → a < b → K' a b = K a b) (h : Follows K i j t) : Follows K' i j t := by
  induction t generalizing i j with
  | edge =>
    refine ⟨h.1, ?_⟩
    rw [hk i j (Nat.le_refl _) (Nat.le_refl _) (by have := h.1; omega)]
    exact h.2
  | tri k l r ihl ihr =>
    obtain ⟨h1, h2, h3, h4, h5⟩ := h
    refine ⟨h1, h2, ?_, ihl (fun a b ha hb => hk a b ha (by omega)) h4, ihr (fun a b ha hb => hk a b (by omega) hb) h5⟩
    rw [hk i j (Nat.le_refl _) (Nat.le_refl _) (by omega)]
    exact h3

def Triang.size : Triang → Nat
  | .edge => 1
  | .tri _ l r => 1 + Triang.size l + Triang.size r

theorem sort3_eq {i k j : Nat} (h1 : i < k) (h2 : k < j) : sort3 i j k = (i, k, j) := by
  unfold sort3
  have e1 : min i (min j k) = i := by omega
  have e2 : max i (max j k) = j := by omega
  simp only [e1, e2]
  have : i + j + k - i - j = k := by omega
  rw [this]

/-- The loop over the queue collects the triangles of all parts. -/
theorem triLoop_spec (K : Nat → Nat → Option Nat) :
    ∀ (N : Nat) (q : List (Nat × Nat × Triang)) (acc : List Tri), (q.map fun x => Triang.size x.2.2).sum ≤ N →
      (∀ x ∈ q, Follows K x.1 x.2.1 x.2.2) →
      ∃ r, (∀ fuel, N ≤ fuel → triLoop K fuel (q.map fun x => (x.1, x.2.1)) acc = some r) ∧
        r.Perm (acc ++ q.flatMap fun x => x.2.2.tris x.1 x.2.1) := by
  intro N
  induction N with
  | zero =>
    intro q acc hN _
    cases q with
    | nil =>
      refine ⟨acc, fun fuel _ => ?_, by simp⟩
      cases fuel <;> simp [triLoop]
    | cons x q =>
      simp only [List.map_cons, List.sum_cons] at hN
      cases h : x.2.2 <;> rw [h] at hN <;> simp only [Triang.size] at hN <;> omega
  | succ N ih =>
    intro q acc hN hq
    cases q with
    | nil =>
      refine ⟨acc, fun fuel _ => ?_, by simp⟩
      cases fuel <;> simp [triLoop]
    | cons x q =>
      obtain ⟨i, j, t⟩ := x
      have hx := hq (i, j, t) List.mem_cons_self
      have hrest : ∀ x ∈ q, Follows K x.1 x.2.1 x.2.2 := fun x hx => hq x (List.mem_cons_of_mem _ hx)
      have hij : i ≠ j := Nat.ne_of_lt (below_lt (follows_below hx))
      simp only [List.map_cons, List.sum_cons] at hN
      cases t with
      | edge =>
        obtain ⟨r, h1, h2⟩ := ih q acc (by simp only [Triang.size] at hN; omega) hrest
        refine ⟨r, ?_, by simpa [Triang.tris] using h2⟩
        intro fuel hf
        obtain ⟨fuel, rfl⟩ : ∃ k, fuel = k + 1 := ⟨fuel - 1, by omega⟩
        rw [List.map_cons]
        unfold triLoop
        simp only
        rw [if_neg hij, hx.2]
        exact h1 fuel (by omega)
      | tri k l r' =>
        obtain ⟨a1, a2, a3, a4, a5⟩ := hx
        obtain ⟨r, h1, h2⟩ := ih (q ++ [(i, k, l), (k, j, r')]) (acc ++ [sort3 i j k])
          (by
            simp only [Triang.size] at hN
            simp only [List.map_append, List.sum_append, List.map_cons, List.map_nil, List.sum_cons, List.sum_nil]
            omega)
          (by
            intro x hx
            rcases List.mem_append.mp hx with hx | hx
            · exact hrest x hx
            · simp only [List.mem_cons, List.not_mem_nil, or_false] at hx
              rcases hx with rfl | rfl
              · exact a4
              · exact a5)
        refine ⟨r, ?_, ?_⟩
        · intro fuel hf
          obtain ⟨fuel, rfl⟩ : ∃ k, fuel = k + 1 := ⟨fuel - 1, by omega⟩
          rw [List.map_cons]
          unfold triLoop
          simp only
          rw [if_neg hij, a3]
          simp only
          rw [← h1 fuel (by omega)]
          simp
        · refine h2.trans ?_
          rw [sort3_eq a1 a2]
          simp only [List.flatMap_append, List.flatMap_cons, List.flatMap_nil, List.append_nil, Triang.tris,
            List.append_assoc, List.cons_append, List.nil_append]
          refine List.Perm.append_left _ (List.Perm.cons _ ?_)
          refine (List.perm_append_comm (l₁ := q.flatMap _)).trans ?_
          simp only [List.append_assoc]
          exact List.Perm.refl _

variable {D : Type}

/-- What the weights of `double` satisfy: the triangle next to the first corner always has a weight below the maximum. -/
structure WeightsOk (w : Weights D) : Prop where
  trans : ∀ a b, w.lt a b = true → w.lt b w.max = true → w.lt a w.max = true
  step : ∀ i j v, (v = w.zero ∨ w.lt v w.max = true) → w.lt (w.weight i (i + 1) j w.zero v) w.max = true

theorem bestK_spec (w : Weights D) (T : Nat → Nat → D) (i j : Nat) (ks : List Nat) (best : D × Option Nat) :
    bestK w T i j ks best = best ∨
      ∃ k ∈ ks, bestK w T i j ks best = (w.weight i k j (T i k) (T k j), some k) := by
  induction ks generalizing best with
  | nil => exact Or.inl rfl
  | cons k ks ih =>
    unfold bestK
    simp only
    by_cases h : w.lt (w.weight i k j (T i k) (T k j)) best.1 = true
    · rw [if_pos h]
      rcases ih (w.weight i k j (T i k) (T k j), some k) with e | ⟨k', hk', e⟩
      · exact Or.inr ⟨k, List.mem_cons_self, e⟩
      · exact Or.inr ⟨k', List.mem_cons_of_mem _ hk', e⟩
    · rw [if_neg h]
      rcases ih best with e | ⟨k', hk', e⟩
      · exact Or.inl e
      · exact Or.inr ⟨k', List.mem_cons_of_mem _ hk', e⟩

theorem bestK_lt (w : Weights D) (hw : WeightsOk w) (T : Nat → Nat → D) (i j : Nat) (ks : List Nat) (best : D × Option Nat)
    (hb : w.lt best.1 w.max = true) : w.lt (bestK w T i j ks best).1 w.max = true := by
  induction ks generalizing best with
  | nil => exact hb
  | cons k ks ih =>
    unfold bestK
    simp only
    by_cases h : w.lt (w.weight i k j (T i k) (T k j)) best.1 = true
    · rw [if_pos h]
      exact ih _ (hw.trans _ _ h hb)
    · rw [if_neg h]
      exact ih _ hb

/-- The weight of a triangulation. -/
def cost (w : Weights D) : Nat → Nat → Triang → D
  | _, _, .edge => w.zero
  | i, j, .tri k l r => w.weight i k j (cost w i k l) (cost w k j r)

theorem fillTables_outside (w : Weights D) (n d i j : Nat) (h : j < i + 2 ∨ i + d ≤ j) :
    (fillTables w n d).1 i j = w.zero ∧ (fillTables w n d).2 i j = none := by
  induction d with
  | zero => exact ⟨rfl, rfl⟩
  | succ d ih =>
    have := ih (by omega)
    unfold fillTables
    simp only
    rw [if_neg (by omega), if_neg (by omega)]
    exact this

theorem fillTables_spec (w : Weights D) (hw : WeightsOk w) (n : Nat) :
    ∀ d i j, i < j → j < n → j - i < d →
      (∃ t, Follows (fillTables w n d).2 i j t ∧ (fillTables w n d).1 i j = cost w i j t) ∧
        ((fillTables w n d).1 i j = w.zero ∨ w.lt ((fillTables w n d).1 i j) w.max = true) := by
  intro d
  induction d with
  | zero => intro i j _ _ h; omega
  | succ d ih =>
    intro i j hij hjn hd
    have hK : ∀ a b, b - a < d → (fillTables w n (d + 1)).2 a b = (fillTables w n d).2 a b := by
      intro a b h
      rw [fillTables]
      simp only
      rw [if_neg]
      rintro ⟨h1, h2, h3⟩
      omega
    have hT : ∀ a b, b - a < d → (fillTables w n (d + 1)).1 a b = (fillTables w n d).1 a b := by
      intro a b h
      rw [fillTables]
      simp only
      rw [if_neg]
      rintro ⟨h1, h2, h3⟩
      omega
    by_cases hlt : j - i < d
    · obtain ⟨⟨t, h1, h2⟩, h3⟩ := ih i j hij hjn hlt
      rw [hT i j hlt]
      refine ⟨⟨t, follows_congr (fun a b ha hb hab => hK a b (by omega)) h1, h2⟩, h3⟩
    · have hjd : j = i + d := by omega
      by_cases h2 : j < i + 2
      · have hout := fillTables_outside w n (d + 1) i j (Or.inl h2)
        refine ⟨⟨.edge, ⟨by omega, hout.2⟩, hout.1⟩, Or.inl hout.1⟩
      · -- a new entry
        set best := bestK w (fillTables w n d).1 i j (List.range' (i + 1) (j - i - 1)) (w.max, none) with hbest
        have e1 : (fillTables w n (d + 1)).1 i j = best.1 := by
          rw [fillTables]
          simp only
          rw [if_pos ⟨hjd, hjn, h2⟩]
        have e2 : (fillTables w n (d + 1)).2 i j = best.2 := by
          rw [fillTables]
          simp only
          rw [if_pos ⟨hjd, hjn, h2⟩]
        -- the first candidate is chosen
        have hr : List.range' (i + 1) (j - i - 1) = (i + 1) :: List.range' (i + 1 + 1) (j - i - 2) := by
          have : j - i - 1 = (j - i - 2) + 1 := by omega
          rw [this, List.range'_succ]
        have hz : (fillTables w n d).1 i (i + 1) = w.zero := (fillTables_outside w n d i (i + 1) (Or.inl (by omega))).1
        have hfirst : w.lt (w.weight i (i + 1) j ((fillTables w n d).1 i (i + 1)) ((fillTables w n d).1 (i + 1) j)) w.max
            = true := by
          rw [hz]
          refine hw.step _ _ _ ?_
          by_cases hjj : i + 1 < j
          · exact (ih (i + 1) j hjj hjn (by omega)).2
          · omega
        have hb' : best = bestK w (fillTables w n d).1 i j (List.range' (i + 1 + 1) (j - i - 2))
            (w.weight i (i + 1) j ((fillTables w n d).1 i (i + 1)) ((fillTables w n d).1 (i + 1) j), some (i + 1)) := by
          rw [hbest, hr, bestK]
          simp only
          rw [if_pos hfirst]
        have hblt : w.lt best.1 w.max = true := by
          rw [hb']
          exact bestK_lt w hw _ _ _ _ _ hfirst
        have hex : ∃ k, i < k ∧ k < j ∧
            best = (w.weight i k j ((fillTables w n d).1 i k) ((fillTables w n d).1 k j), some k) := by
          rcases bestK_spec w (fillTables w n d).1 i j (List.range' (i + 1 + 1) (j - i - 2))
            (w.weight i (i + 1) j ((fillTables w n d).1 i (i + 1)) ((fillTables w n d).1 (i + 1) j), some (i + 1))
            with e | ⟨k, hk, e⟩
          · exact ⟨i + 1, by omega, by omega, hb'.trans e⟩
          · rw [List.mem_range'_1] at hk
            exact ⟨k, by omega, by omega, hb'.trans e⟩
        obtain ⟨k, k1, k2, hk⟩ := hex
        obtain ⟨⟨t1, f1, c1⟩, -⟩ := ih i k k1 (by omega) (by omega)
        obtain ⟨⟨t2, f2, c2⟩, -⟩ := ih k j k2 hjn (by omega)
        refine ⟨⟨.tri k t1 t2, ⟨k1, k2, ?_, ?_, ?_⟩, ?_⟩, ?_⟩
        · rw [e2, hk]
        · exact follows_congr (fun a b ha hb hab => hK a b (by omega)) f1
        · exact follows_congr (fun a b ha hb hab => hK a b (by omega)) f2
        · rw [e1, hk, c1, c2]
          rfl
        · rw [e1]; exact Or.inr hblt

/-- The triangles are those of a triangulation of the polygon. -/
theorem minWeightTris_spec (w : Weights D) (hw : WeightsOk w) (n : Nat) (hn : 2 ≤ n) :
    ∃ N tris t, (∀ fuel, N ≤ fuel → minWeightTris w fuel n = some (.ok tris)) ∧ Below 0 (n - 1) t ∧
      tris.Perm (t.tris 0 (n - 1)) ∧ (fillTables w n n).1 0 (n - 1) = cost w 0 (n - 1) t := by
  obtain ⟨⟨t, ht, hc⟩, -⟩ := fillTables_spec w hw n n 0 (n - 1) (by omega) (by omega) (by omega)
  obtain ⟨r, h1, h2⟩ := triLoop_spec (fillTables w n n).2 (Triang.size t) [(0, n - 1, t)] [] (by simp)
    (by simpa using ht)
  simp only [List.map_cons, List.map_nil, List.nil_append, List.flatMap_cons, List.flatMap_nil, List.append_nil] at h1 h2
  refine ⟨Triang.size t, r, t, ?_, follows_below ht, h2, hc⟩
  intro fuel hf
  unfold minWeightTris
  rw [h1 fuel hf]
  have hlen : ∀ i j (t : Triang), Below i j t → (t.tris i j).length = j - i - 1 := by
    intro i j t
    induction t generalizing i j with
    | edge => intro h; have : j = i + 1 := h; simp [Triang.tris]; omega
    | tri k l r ihl ihr =>
      rintro ⟨a1, a2, a3, a4⟩
      simp only [Triang.tris, List.length_cons, List.length_append, ihl i k a3, ihr k j a4]
      have := below_lt a3
      have := below_lt a4
      omega
  have : r.length = n - 2 := by
    rw [h2.length_eq, hlen 0 (n - 1) t (follows_below ht)]
    omega
  simp [this]

theorem below_tris {i j : Nat} {t : Triang} (h : Below i j t) :
    ∀ x ∈ t.tris i j, i ≤ x.1 ∧ x.1 < x.2.1 ∧ x.2.1 < x.2.2 ∧ x.2.2 ≤ j := by
  induction t generalizing i j with
  | edge => intro x hx; cases hx
  | tri k l r ihl ihr =>
    obtain ⟨a1, a2, a3, a4⟩ := h
    intro x hx
    rcases List.mem_cons.mp hx with rfl | hx
    · exact ⟨Nat.le_refl _, a1, a2, Nat.le_refl _⟩
    · rcases List.mem_append.mp hx with hx | hx
      · have := ihl a3 x hx; omega
      · have := ihr a4 x hx; omega

/-- The triangles of a triangulation add up to the outline. -/
theorem below_flow {A : Type} [AddCommGroup A] (φ : Nat → Nat → A) (hφ : Anti φ) {i j : Nat} {t : Triang}
    (h : Below i j t) :
    ((t.tris i j).map fun x => flow φ [x.1, x.2.1, x.2.2]).sum = path φ i (List.range' (i + 1) (j - i)) + φ j i := by
  induction t generalizing i j with
  | edge =>
    have : j = i + 1 := h
    subst this
    have e : i + 1 - i = 1 := by omega
    rw [e]
    simp [Triang.tris, path, hφ (i + 1) i]
  | tri k l r ihl ihr =>
    obtain ⟨a1, a2, a3, a4⟩ := h
    simp only [Triang.tris, List.map_cons, List.sum_cons, List.map_append, List.sum_append, ihl a3, ihr a4]
    have e : List.range' (i + 1) (j - i) = List.range' (i + 1) (k - i - 1) ++ k :: List.range' (k + 1) (j - k) := by
      have h1 : j - i = (k - i - 1) + ((j - k) + 1) := by omega
      have h2 : i + 1 + (k - i - 1) = k := by omega
      rw [h1, ← List.range'_append_1, List.range'_succ, h2]
    have e2 : List.range' (i + 1) (k - i) = List.range' (i + 1) (k - i - 1) ++ [k] := by
      have h1 : k - i = (k - i - 1) + 1 := by omega
      rw [h1, ← List.range'_append_1]
      simp
      omega
    rw [e, path_append, ← e2]
    simp only [flow, List.cons_append, List.nil_append, path]
    rw [hφ i k, hφ k j]
    abel

end Verif.Faces
