import Verif.Geom.StorageSpec

/-! Lemmas about the container of points. -/

namespace Verif.Geom.Storage

open Verif

variable {α : Type}

/-- The container agrees with the array. -/
structure Rel (N : Nat) (s : Store α) (a : Spec.Arr α) : Prop where
  arr : s.array.length = N
  cnt : s.count = a.vals.length
  vec : s.count - N ≤ s.vector.length
  fresh : a.stale = false → s.vector.length = s.count - N
  low : ∀ k v, k < N → a.vals[k]? = some (some v) → s.array[k]? = some (some v)
  high : ∀ k v, a.vals[N + k]? = some (some v) → s.vector[k]? = some (some v)
  ns : a.stale = true → a.vals.length ≤ N

theorem vresize_length (v : List (Option α)) (n : Nat) : (vresize v n).length = n := by
  simp [vresize]; omega

theorem vresize_get {v : List (Option α)} {n k : Nat} {x : α} (hk : k < n) (h : v[k]? = some (some x)) :
    (vresize v n)[k]? = some (some x) := by
  obtain ⟨hl, e⟩ := List.getElem?_eq_some_iff.1 h
  unfold vresize
  rw [List.getElem?_append_left (by simp; omega), List.getElem?_take_of_lt hk, h]

theorem resized_get {l : List (Option α)} {n k : Nat} {x : α} (h : (Spec.resized l n)[k]? = some (some x)) :
    k < n ∧ l[k]? = some (some x) := by
  unfold Spec.resized at h
  by_cases hk : k < (l.take n).length
  · rw [List.getElem?_append_left hk] at h
    simp only [List.length_take] at hk
    rw [List.getElem?_take_of_lt (by omega)] at h
    exact ⟨by omega, h⟩
  · rw [List.getElem?_append_right (by omega)] at h
    obtain ⟨_, e⟩ := List.getElem?_eq_some_iff.1 h
    simp at e

theorem resized_length (l : List (Option α)) (n : Nat) : (Spec.resized l n).length = n := by
  simp [Spec.resized]; omega

theorem blit_ok {dst src : List (Option α)} {n : Nat} (h1 : n ≤ dst.length) (h2 : n ≤ src.length) :
    blit dst src n = .ok (src.take n ++ dst.drop n) := by
  unfold blit; rw [if_pos ⟨h1, h2⟩]

theorem blit_length {dst src : List (Option α)} {n : Nat} (h1 : n ≤ dst.length) (h2 : n ≤ src.length) :
    (src.take n ++ dst.drop n).length = dst.length := by simp; omega

theorem blit_get {dst src : List (Option α)} {n k : Nat} (h2 : n ≤ src.length) (hk : k < n) :
    (src.take n ++ dst.drop n)[k]? = src[k]? := by
  rw [List.getElem?_append_left (by simp; omega), List.getElem?_take_of_lt hk]

theorem new_vec (N n : Nat) : (new N n : Store α).vector.length = n - N := by
  unfold new
  simp only
  split
  · rw [vresize_length]
  · simp only [List.length_nil]; omega

theorem new_arr (N n : Nat) : (new N n : Store α).array.length = N := by simp [new]

theorem new_rel (N n : Nat) : Rel N (new N n : Store α) ⟨List.replicate n none, false⟩ := by
  have none_ : ∀ (k : Nat) (v : α), (List.replicate n (none : Option α))[k]? ≠ some (some v) := by
    intro k v h
    obtain ⟨_, e⟩ := List.getElem?_eq_some_iff.1 h
    simp at e
  refine ⟨new_arr N n, by simp [new], ?_, ?_, ?_, ?_, by simp⟩
  · rw [new_vec]; exact Nat.le_refl _
  · intro _; rw [new_vec]; rfl
  · intro k v _ h; exact absurd h (none_ k v)
  · intro k v h; exact absurd h (none_ _ v)

theorem ofRange_rel (N : Nat) (l : List α) : ∃ s, ofRange N l = .ok s ∧ Rel N s ⟨l.map some, false⟩ := by
  unfold ofRange
  have ha := new_arr (α := α) N l.length
  have hv := new_vec (α := α) N l.length
  have hl : (l.map some).length = l.length := by simp
  have hc : (new N l.length : Store α).count = l.length := rfl
  simp only
  rw [blit_ok (by omega) (by omega)]
  simp only [Outcome.ok_bind]
  by_cases hgt : l.length > N
  · have hl2 : ((l.drop N).map some).length = l.length - N := by simp
    rw [if_pos hgt, blit_ok (by omega) (by omega)]
    simp only [Outcome.ok_bind, Outcome.pure_eq]
    refine ⟨_, rfl, ?_, by simp [new], ?_, ?_, ?_, ?_, by simp⟩
    · rw [blit_length (by omega) (by omega), ha]
    · simp only
      rw [blit_length (by omega) (by omega), hv]; exact Nat.le_refl _
    · intro _
      simp only
      rw [blit_length (by omega) (by omega), hv]; rfl
    · intro k v hk h
      simp only at h ⊢
      rw [blit_get (by omega) (by omega)]; exact h
    · intro k v h
      simp only at h ⊢
      have hk : N + k < l.length := by
        obtain ⟨hk, _⟩ := List.getElem?_eq_some_iff.1 h
        omega
      rw [blit_get (by omega) (by omega), List.getElem?_map, List.getElem?_drop]
      simpa using h
  · rw [if_neg hgt]
    simp only [Outcome.ok_bind, Outcome.pure_eq]
    refine ⟨_, rfl, ?_, by simp [new], ?_, ?_, ?_, ?_, by simp⟩
    · rw [blit_length (by omega) (by omega), ha]
    · rw [hv]; exact Nat.le_refl _
    · intro _; rw [hv]; rfl
    · intro k v hk h
      simp only at h ⊢
      obtain ⟨hk, _⟩ := List.getElem?_eq_some_iff.1 h
      rw [blit_get (by omega) (by omega)]; exact h
    · intro k v h
      obtain ⟨hk, _⟩ := List.getElem?_eq_some_iff.1 h
      simp only at hk
      omega

theorem push_rel {N : Nat} {s : Store α} {a : Spec.Arr α} (h : Rel N s a) (p : α)
    (hf : a.vals.length ≥ N → a.stale = false) : ∃ s', push N s p = .ok s' ∧ Rel N s' ⟨a.vals ++ [some p], a.stale⟩ := by
  obtain ⟨h1, h2, h3, h4, h5, h6, hn⟩ := h
  unfold push
  by_cases hc : s.count + 1 > N
  · simp only [if_pos hc]
    have hv := h4 (hf (by omega))
    refine ⟨_, rfl, h1, by simp [h2], by simp only [List.length_append, List.length_singleton]; omega,
      by intro _; simp only [List.length_append, List.length_singleton]; omega, ?_, ?_, ?_⟩
    · intro k v hk h
      refine h5 k v hk ?_
      rw [List.getElem?_append_left (by omega)] at h; exact h
    · intro k v h
      simp only at h ⊢
      by_cases hk : N + k < a.vals.length
      · rw [List.getElem?_append_left hk] at h
        rw [List.getElem?_append_left (by omega)]
        exact h6 k v h
      · rw [List.getElem?_append_right (by omega)] at h
        rw [List.getElem?_append_right (by omega)]
        rw [show k - s.vector.length = N + k - a.vals.length by omega]
        exact h
    · intro hst
      simp only [hf (by omega)] at hst
      exact absurd hst (by simp)
  · simp only [if_neg hc]
    have hlt : s.count + 1 - 1 < s.array.length := by omega
    simp only [Outcome.writeAt, if_pos hlt, Outcome.ok_bind, Outcome.pure_eq]
    refine ⟨_, rfl, by simp [h1], by simp [h2], by simp only; omega, ?_, ?_, ?_, ?_⟩
    · intro hs; have := h4 hs; simp only; omega
    · intro k v hk h
      simp only at h ⊢
      by_cases hk' : k < a.vals.length
      · rw [List.getElem?_append_left hk'] at h
        rw [List.getElem?_set_ne (by omega)]
        exact h5 k v hk h
      · rw [List.getElem?_append_right (by omega)] at h
        have he : k - a.vals.length = 0 := by
          obtain ⟨hh, _⟩ := List.getElem?_eq_some_iff.1 h
          simpa using hh
        rw [he] at h
        rw [show s.count + 1 - 1 = k by omega, List.getElem?_set_self (by omega)]
        exact h
    · intro k v h
      obtain ⟨hh, _⟩ := List.getElem?_eq_some_iff.1 h
      simp at hh
      omega
    · intro _
      simp only [List.length_append, List.length_singleton]
      omega

theorem write_rel {N : Nat} {s : Store α} {a : Spec.Arr α} (h : Rel N s a) (k : Nat) (p : α)
    (hk : k < a.vals.length) : ∃ s', write N s k p = .ok s' ∧ Rel N s' ⟨a.vals.set k (some p), a.stale⟩ := by
  obtain ⟨h1, h2, h3, h4, h5, h6, hn⟩ := h
  unfold write
  by_cases hc : k ≥ N
  · have hlt : k - N < s.vector.length := by omega
    simp only [if_pos hc, Outcome.writeAt, if_pos hlt, Outcome.ok_bind, Outcome.pure_eq]
    refine ⟨_, rfl, h1, by simp [h2], by simpa using h3, by simpa using h4, ?_, ?_, by simpa using hn⟩
    · intro i v hi h
      simp only at h ⊢
      rw [List.getElem?_set_ne (by omega)] at h
      exact h5 i v hi h
    · intro i v h
      simp only at h ⊢
      by_cases he : k = N + i
      · rw [← he, List.getElem?_set_self hk] at h
        rw [show k - N = i by omega, List.getElem?_set_self (by omega)]
        exact h
      · rw [List.getElem?_set_ne he] at h
        rw [List.getElem?_set_ne (by omega)]
        exact h6 i v h
  · have hlt : k < s.array.length := by omega
    simp only [if_neg hc, Outcome.writeAt, if_pos hlt, Outcome.ok_bind, Outcome.pure_eq]
    refine ⟨_, rfl, by simpa using h1, by simp [h2], by simpa using h3, by simpa using h4, ?_, ?_, by simpa using hn⟩
    · intro i v hi h
      simp only at h ⊢
      by_cases he : k = i
      · subst he
        rw [List.getElem?_set_self hk] at h
        rw [List.getElem?_set_self (by omega)]
        exact h
      · rw [List.getElem?_set_ne he] at h
        rw [List.getElem?_set_ne he]
        exact h5 i v hi h
    · intro i v h
      simp only at h ⊢
      rw [List.getElem?_set_ne (by omega)] at h
      exact h6 i v h

theorem become_stale {N : Nat} {a : Spec.Arr α} {l : List (Option α)} (h : (a.become N l).stale = false)
    (hl : l.length ≤ N) : a.stale = false ∧ a.vals.length ≤ N := by
  simp only [Spec.Arr.become, Bool.and_eq_false_iff, Bool.or_eq_false_iff, decide_eq_false_iff_not] at h
  rcases h with h | h
  · exact absurd hl h
  · exact ⟨h.1, by omega⟩

theorem become_ns (N : Nat) (a : Spec.Arr α) (l : List (Option α)) : (a.become N l).stale = true →
    (a.become N l).vals.length ≤ N := by
  simp only [Spec.Arr.become, Bool.and_eq_true, decide_eq_true_eq]
  exact fun h => h.1

theorem resize_rel {N : Nat} {s : Store α} {a : Spec.Arr α} (h : Rel N s a) (n : Nat) :
    Rel N (resize N s n) (a.become N (Spec.resized a.vals n)) := by
  obtain ⟨h1, h2, h3, h4, h5, h6, hn⟩ := h
  unfold resize
  by_cases hc : n > N
  · rw [if_pos hc]
    refine ⟨h1, by simp [Spec.Arr.become, resized_length], by simp [vresize_length], by simp [vresize_length], ?_, ?_,
      become_ns _ _ _⟩
    · intro k v hk h
      exact h5 k v hk (resized_get h).2
    · intro k v h
      obtain ⟨a1, a2⟩ := resized_get h
      exact vresize_get (by omega) (h6 k v a2)
  · rw [if_neg hc]
    refine ⟨h1, by simp [Spec.Arr.become, resized_length], by simp only; omega, ?_, ?_, ?_, become_ns _ _ _⟩
    · intro hs
      obtain ⟨a1, a2⟩ := become_stale hs (by rw [resized_length]; omega)
      have := h4 a1
      simp only; omega
    · intro k v hk h
      exact h5 k v hk (resized_get h).2
    · intro k v h
      have := (resized_get h).1
      omega

theorem clear_rel {N : Nat} {s : Store α} {a : Spec.Arr α} (h : Rel N s a) : Rel N (clear s) (a.become N []) := by
  obtain ⟨h1, h2, h3, h4, h5, h6, hn⟩ := h
  refine ⟨h1, rfl, by simp [clear], ?_, by simp [Spec.Arr.become], by simp [Spec.Arr.become],
    become_ns _ _ _⟩
  intro hs
  obtain ⟨a1, a2⟩ := become_stale hs (by simp)
  have := h4 a1
  simp only [clear]; omega

/-- Copying or moving all points of a container. -/
theorem blit_rel {N : Nat} {dst : List (Option α)} {src : Store α} {b : Spec.Arr α} (h : Rel N src b)
    (hd : dst.length = N) : ∃ a, blit dst src.array (min src.count N) = .ok a ∧ a.length = N ∧
      ∀ k v, k < N → b.vals[k]? = some (some v) → a[k]? = some (some v) := by
  obtain ⟨h1, h2, h3, h4, h5, h6, hn⟩ := h
  refine ⟨_, blit_ok (by omega) (by omega), ?_, ?_⟩
  · rw [blit_length (by omega) (by omega), hd]
  · intro k v hk hv
    obtain ⟨hl, _⟩ := List.getElem?_eq_some_iff.1 hv
    rw [blit_get (by omega) (by omega)]
    exact h5 k v hk hv

theorem vblit_rel {N : Nat} {dst : List (Option α)} {src : Store α} {b : Spec.Arr α} (h : Rel N src b)
    (hd : dst.length = src.count - N) : ∃ a, blit dst src.vector (src.count - N) = .ok a ∧ a.length = src.count - N ∧
      ∀ k v, b.vals[N + k]? = some (some v) → a[k]? = some (some v) := by
  obtain ⟨h1, h2, h3, h4, h5, h6, hn⟩ := h
  refine ⟨_, blit_ok (by omega) (by omega), ?_, ?_⟩
  · rw [blit_length (by omega) (by omega), hd]
  · intro k v hv
    obtain ⟨hl, _⟩ := List.getElem?_eq_some_iff.1 hv
    rw [blit_get (by omega) (by omega)]
    exact h6 k v hv

theorem no_high {N : Nat} {src : Store α} {b : Spec.Arr α} (h : Rel N src b) (hc : ¬ src.count > N) (k : Nat) (v : α) :
    b.vals[N + k]? ≠ some (some v) := by
  intro hv
  obtain ⟨hl, _⟩ := List.getElem?_eq_some_iff.1 hv
  have := h.cnt
  omega

theorem copyCtor_rel {N : Nat} {src : Store α} {b : Spec.Arr α} (h : Rel N src b) :
    ∃ s, copyCtor N src = .ok s ∧ Rel N s ⟨b.vals, false⟩ := by
  unfold copyCtor
  have ha : (new N src.count : Store α).array.length = N := by simp [new]
  obtain ⟨a, e, la, ga⟩ := blit_rel h ha
  simp only [e, Outcome.ok_bind]
  by_cases hc : src.count > N
  · obtain ⟨v, e2, lv, gv⟩ := vblit_rel (dst := (new N src.count : Store α).vector) h (by simp [new, hc, vresize_length])
    rw [if_pos hc, e2]
    simp only [Outcome.ok_bind, Outcome.pure_eq]
    exact ⟨_, rfl, la, h.cnt, by simp [new, lv], by simp [new, lv], ga, gv, by simp⟩
  · rw [if_neg hc]
    simp only [Outcome.ok_bind, Outcome.pure_eq]
    exact ⟨_, rfl, la, h.cnt, by simp [new]; omega, by simp [new, hc]; omega, ga, fun k v hv => absurd hv (no_high h hc k v),
      by simp⟩

theorem copyAssign_rel {N : Nat} {s src : Store α} {a b : Spec.Arr α} (hs : Rel N s a) (h : Rel N src b) :
    ∃ s', copyAssign N s src = .ok s' ∧ Rel N s' (a.become N b.vals) := by
  unfold copyAssign
  obtain ⟨x, e, la, ga⟩ := blit_rel h hs.arr
  simp only [e, Outcome.ok_bind]
  by_cases hc : src.count > N
  · obtain ⟨v, e2, lv, gv⟩ := vblit_rel (dst := vresize s.vector (src.count - N)) h (vresize_length _ _)
    rw [if_pos hc, e2]
    simp only [Outcome.ok_bind, Outcome.pure_eq]
    exact ⟨_, rfl, la, h.cnt, by simp [lv], by simp [lv], ga, gv, become_ns _ _ _⟩
  · rw [if_neg hc]
    simp only [Outcome.ok_bind, Outcome.pure_eq]
    refine ⟨_, rfl, la, h.cnt, by simp only; omega, ?_, ga, fun k v hv => absurd hv (no_high h hc k v), become_ns _ _ _⟩
    intro hst
    have hcb := h.cnt
    obtain ⟨a1, a2⟩ := become_stale hst (by omega)
    have := hs.fresh a1
    have := hs.cnt
    simp only; omega

/-- What is left of a container after moving from it. -/
theorem moved_rel {N : Nat} {src : Store α} {b : Spec.Arr α} (h : Rel N src b) :
    Rel N (if src.count > N then { src with vector := [], count := 0 } else { src with count := 0 })
      ⟨[], decide (b.vals.length ≤ N) && b.stale⟩ := by
  have hcb := h.cnt
  by_cases hc : src.count > N
  · rw [if_pos hc]
    exact ⟨h.arr, rfl, by simp, by simp, by simp, by simp, by simp⟩
  · rw [if_neg hc]
    refine ⟨h.arr, rfl, by simp, ?_, by simp, by simp, by simp⟩
    intro hst
    simp only [Bool.and_eq_false_iff, decide_eq_false_iff_not] at hst
    rcases hst with hst | hst
    · omega
    · have := h.fresh hst
      simp only; omega

theorem moveCtor_rel {N : Nat} {src : Store α} {b : Spec.Arr α} (h : Rel N src b) :
    ∃ s, moveCtor N src = .ok s ∧ Rel N s.1 ⟨b.vals, false⟩ ∧
      Rel N s.2 ⟨[], decide (b.vals.length ≤ N) && b.stale⟩ := by
  unfold moveCtor
  have ha : (new N 0 : Store α).array.length = N := by simp [new]
  obtain ⟨a, e, la, ga⟩ := blit_rel h ha
  have hm := moved_rel h
  have hcb := h.cnt
  simp only [e, Outcome.ok_bind]
  by_cases hc : src.count > N
  · rw [if_pos hc] at hm ⊢
    refine ⟨_, rfl, ⟨la, h.cnt, h.vec, ?_, ga, h.high, by simp⟩, hm⟩
    intro _
    cases hst : b.stale with
    | false => exact h.fresh hst
    | true => have := h.ns hst; omega
  · rw [if_neg hc] at hm ⊢
    exact ⟨_, rfl, ⟨la, h.cnt, by simp [new]; omega, by simp [new]; omega, ga,
      fun k v hv => absurd hv (no_high h hc k v), by simp⟩, hm⟩

theorem moveAssign_rel {N : Nat} {s src : Store α} {a b : Spec.Arr α} (hs : Rel N s a) (h : Rel N src b) :
    ∃ s', moveAssign N s src = .ok s' ∧ Rel N s'.1 (a.become N b.vals) ∧
      Rel N s'.2 ⟨[], decide (b.vals.length ≤ N) && b.stale⟩ := by
  unfold moveAssign
  obtain ⟨x, e, la, ga⟩ := blit_rel h hs.arr
  have hm := moved_rel h
  have hcb := h.cnt
  simp only [e, Outcome.ok_bind]
  by_cases hc : src.count > N
  · rw [if_pos hc] at hm ⊢
    refine ⟨_, rfl, ⟨la, h.cnt, h.vec, ?_, ga, h.high, become_ns _ _ _⟩, hm⟩
    intro _
    cases hst : b.stale with
    | false => exact h.fresh hst
    | true => have := h.ns hst; omega
  · rw [if_neg hc] at hm ⊢
    refine ⟨_, rfl, ⟨la, h.cnt, by simp only; omega, ?_, ga, fun k v hv => absurd hv (no_high h hc k v),
      become_ns _ _ _⟩, hm⟩
    intro hst
    obtain ⟨a1, a2⟩ := become_stale hst (by omega)
    have := hs.fresh a1
    have := hs.cnt
    simp only; omega

theorem set_rel {N : Nat} {w : World α} {W : Spec.World α} (h : ∀ i, Rel N (w i) (W i)) {i : Nat} {s : Store α}
    {a : Spec.Arr α} (hs : Rel N s a) : ∀ k, Rel N (w.set i s k) (W.set i a k) := by
  intro k
  unfold World.set Spec.World.set
  split
  · exact hs
  · exact h k

theorem step_rel {N : Nat} {w : World α} {W W' : Spec.World α} (h : ∀ i, Rel N (w i) (W i)) (o : Op α)
    (hf : Spec.Fresh N W o) (hs : Spec.step N W o = some W') :
    ∃ w', step N w o = .ok w' ∧ ∀ i, Rel N (w' i) (W' i) := by
  cases o with
  | new i n =>
    simp only [Spec.step, Option.some.injEq] at hs
    exact ⟨_, rfl, hs ▸ set_rel h (new_rel N n)⟩
  | ofRange i l =>
    simp only [Spec.step, Option.some.injEq] at hs
    obtain ⟨s, e, r⟩ := ofRange_rel N l
    exact ⟨_, by simp only [step, e, Outcome.ok_bind, Outcome.pure_eq], hs ▸ set_rel h r⟩
  | push i p =>
    simp only [Spec.step, Option.some.injEq] at hs
    obtain ⟨s, e, r⟩ := push_rel (h i) p hf
    exact ⟨_, by simp only [step, e, Outcome.ok_bind, Outcome.pure_eq], hs ▸ set_rel h r⟩
  | write i k p =>
    simp only [Spec.step] at hs
    split at hs
    · rename_i hk
      simp only [Option.some.injEq] at hs
      obtain ⟨s, e, r⟩ := write_rel (h i) k p hk
      exact ⟨_, by simp only [step, e, Outcome.ok_bind, Outcome.pure_eq], hs ▸ set_rel h r⟩
    · simp at hs
  | resize i n =>
    simp only [Spec.step, Option.some.injEq] at hs
    exact ⟨_, rfl, hs ▸ set_rel h (resize_rel (h i) n)⟩
  | clear i =>
    simp only [Spec.step, Option.some.injEq] at hs
    exact ⟨_, rfl, hs ▸ set_rel h (clear_rel (h i))⟩
  | copyCtor i j =>
    simp only [Spec.step] at hs
    split at hs
    · simp at hs
    · rename_i hij
      simp only [Option.some.injEq] at hs
      obtain ⟨s, e, r⟩ := copyCtor_rel (h j)
      exact ⟨_, by simp only [step, if_neg hij, e, Outcome.ok_bind, Outcome.pure_eq], hs ▸ set_rel h r⟩
  | copyAssign i j =>
    simp only [Spec.step] at hs
    split at hs
    · simp at hs
    · rename_i hij
      simp only [Option.some.injEq] at hs
      obtain ⟨s, e, r⟩ := copyAssign_rel (h i) (h j)
      exact ⟨_, by simp only [step, if_neg hij, e, Outcome.ok_bind, Outcome.pure_eq], hs ▸ set_rel h r⟩
  | moveCtor i j =>
    simp only [Spec.step] at hs
    split at hs
    · simp at hs
    · rename_i hij
      simp only [Option.some.injEq] at hs
      obtain ⟨s, e, r1, r2⟩ := moveCtor_rel (h j)
      exact ⟨_, by simp only [step, if_neg hij, e, Outcome.ok_bind, Outcome.pure_eq], hs ▸ set_rel (set_rel h r1) r2⟩
  | moveAssign i j =>
    simp only [Spec.step] at hs
    split at hs
    · simp at hs
    · rename_i hij
      simp only [Option.some.injEq] at hs
      obtain ⟨s, e, r1, r2⟩ := moveAssign_rel (h i) (h j)
      exact ⟨_, by simp only [step, if_neg hij, e, Outcome.ok_bind, Outcome.pure_eq], hs ▸ set_rel (set_rel h r1) r2⟩

theorem run_rel {N : Nat} {os : List (Op α)} : ∀ {w : World α} {W W' : Spec.World α}, (∀ i, Rel N (w i) (W i)) →
    Spec.FreshRun N W os → Spec.run N W os = some W' → ∃ w', run N w os = .ok w' ∧ ∀ i, Rel N (w' i) (W' i) := by
  induction os with
  | nil =>
    intro w W W' h _ hr
    simp only [Spec.run, Option.some.injEq] at hr
    exact ⟨w, rfl, hr ▸ h⟩
  | cons o os ih =>
    intro w W W' h hf hr
    simp only [Spec.run, Option.bind_eq_some_iff] at hr
    obtain ⟨W1, hs, hr⟩ := hr
    obtain ⟨w1, e, h1⟩ := step_rel h o hf.1 hs
    obtain ⟨w', e2, h2⟩ := ih h1 (hf.2 W1 hs) hr
    exact ⟨w', by simp only [run, e, Outcome.ok_bind, e2], h2⟩

end Verif.Geom.Storage
