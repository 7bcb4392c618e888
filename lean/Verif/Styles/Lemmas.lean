import Verif.Styles.Spec
import Verif.EntData.DictProps
import Mathlib.Tactic.Ring
import Mathlib.Data.List.Dedup

/-!
Lemmas on the styles of switchable lights.
-/

namespace Verif.Styles

open Verif
open Verif.EntData (Str Dict get set find keys find_set keys_set)

/-! ### Decimal texts -/

/-- The number that decimal digits stand for. -/
def valueOf (s : Str) : Nat := s.foldl (fun a c => a * 10 + (c.toNat - 48)) 0

theorem valueOf_snoc (s : Str) (c : UInt8) : valueOf (s ++ [c]) = valueOf s * 10 + (c.toNat - 48) := by
  simp [valueOf, List.foldl_append]

theorem digit_toNat (n : Nat) (h : n < 10) : ((48 : UInt8) + n.toUInt8).toNat = 48 + n := by
  have : n = 0 ∨ n = 1 ∨ n = 2 ∨ n = 3 ∨ n = 4 ∨ n = 5 ∨ n = 6 ∨ n = 7 ∨ n = 8 ∨ n = 9 := by omega
  rcases this with rfl | rfl | rfl | rfl | rfl | rfl | rfl | rfl | rfl | rfl <;> rfl

theorem valueOf_digitsOf (n : Nat) : valueOf (digitsOf n) = n := by
  induction n using Nat.strongRecOn with
  | ind n ih =>
    rw [digitsOf.eq_def]
    by_cases h : n < 10
    · rw [if_pos h]
      simp only [valueOf, List.foldl_cons, List.foldl_nil, digit_toNat n h]
      omega
    · rw [if_neg h, valueOf_snoc, ih (n / 10) (by omega), digit_toNat _ (by omega)]
      omega

theorem digitsOf_mem (n : Nat) : ∀ c ∈ digitsOf n, 48 ≤ c.toNat ∧ c.toNat ≤ 57 := by
  induction n using Nat.strongRecOn with
  | ind n ih =>
    intro c hc
    rw [digitsOf.eq_def] at hc
    by_cases h : n < 10
    · rw [if_pos h, List.mem_singleton] at hc
      subst hc
      rw [digit_toNat n h]; omega
    · rw [if_neg h, List.mem_append, List.mem_singleton] at hc
      rcases hc with hc | rfl
      · exact ih (n / 10) (by omega) c hc
      · rw [digit_toNat _ (by omega)]; omega

theorem decimal_mem (i : Int) : ∀ c ∈ decimal i, c ≠ 92 := by
  intro c hc h
  subst h
  unfold decimal at hc
  split at hc
  · rcases List.mem_cons.mp hc with h | h
    · revert h; decide
    · have := digitsOf_mem _ _ h
      revert this; decide
  · have := digitsOf_mem _ _ hc
    revert this; decide

theorem decimal_injective {i j : Int} (h : decimal i = decimal j) : i = j := by
  have h45 : ∀ (n m : Nat), (45 : UInt8) :: digitsOf n = digitsOf m → False := by
    intro n m h
    have := digitsOf_mem m 45 (by rw [← h]; exact List.mem_cons_self ..)
    revert this; decide
  unfold decimal at h
  split at h <;> split at h
  · have := congrArg valueOf (List.cons.inj h).2
    rw [valueOf_digitsOf, valueOf_digitsOf] at this
    omega
  · exact (h45 _ _ h).elim
  · exact (h45 _ _ h.symm).elim
  · have := congrArg valueOf h
    rw [valueOf_digitsOf, valueOf_digitsOf] at this
    omega

/-! ### The table -/

/-- What the table is like: styles are counted up, and a name occurs once. -/
structure Sound (start max : Int) (t : Table) : Prop where
  style : ∀ (i : Nat) (p : Str × Int), t[i]? = some p → p.2 = start + i ∧ p.2 < max
  once : ∀ (i j : Nat) (p q : Str × Int), t[i]? = some p → t[j]? = some q → p.1 = q.1 → p.1 ≠ [] → i = j

theorem lookup_some {t : Table} {name : Str} {s : Int} (h : lookup t name = some s) :
    name ≠ [] ∧ ∃ i : Nat, t[i]? = some (name, s) := by
  unfold lookup at h
  rw [Option.map_eq_some_iff] at h
  obtain ⟨p, hp, rfl⟩ := h
  have hx := List.find?_some hp
  simp only [decide_eq_true_eq] at hx
  obtain ⟨i, hi⟩ := List.mem_iff_getElem?.mp (List.mem_of_find?_eq_some hp)
  refine ⟨List.length_pos_iff.mp hx.2, i, ?_⟩
  rw [hi, ← hx.1]

theorem lookup_none {t : Table} {name : Str} (h : lookup t name = none) (hn : name ≠ []) :
    ∀ p ∈ t, p.1 ≠ name := by
  unfold lookup at h
  rw [Option.map_eq_none_iff, List.find?_eq_none] at h
  intro p hp he
  have := h p hp
  simp only [decide_eq_true_eq] at this
  exact this ⟨he, List.length_pos_iff.mpr hn⟩

theorem lookup_empty (t : Table) : lookup t [] = none := by
  unfold lookup
  rw [Option.map_eq_none_iff, List.find?_eq_none]
  intro p _
  simp

/-- What a successful call does: it finds the style of a name, or adds one at the end. -/
theorem styleFor_ok {start max : Int} {t t' : Table} {name : Str} {s : Int} (ht : Sound start max t)
    (h : styleFor start max t name = .ok (s, t')) :
    Sound start max t' ∧ ((t' = t ∧ name ≠ [] ∧ ∃ i : Nat, t[i]? = some (name, s)) ∨
      (t' = t ++ [(name, start + t.length)] ∧ s = start + t.length ∧ (name ≠ [] → ∀ p ∈ t, p.1 ≠ name))) := by
  unfold styleFor at h
  split at h
  · next s' hl =>
    simp only [Outcome.ok.injEq, Prod.mk.injEq] at h
    obtain ⟨rfl, rfl⟩ := h
    exact ⟨ht, .inl ⟨rfl, lookup_some hl⟩⟩
  · next hl =>
    simp only at h
    split at h
    · cases h
    · next hm =>
      simp only [Outcome.ok.injEq, Prod.mk.injEq] at h
      obtain ⟨rfl, rfl⟩ := h
      refine ⟨⟨?_, ?_⟩, .inr ⟨rfl, rfl, fun hn => lookup_none hl hn⟩⟩
      · intro i p hp
        rw [List.getElem?_append] at hp
        split at hp
        · exact ht.style i p hp
        · next hi =>
          have : i = t.length := by
            by_contra hne
            rw [List.getElem?_eq_none (by simp; omega)] at hp
            cases hp
          subst this
          simp only [Nat.sub_self, List.getElem?_cons_zero, Option.some.injEq] at hp
          subst hp
          exact ⟨rfl, by simpa using hm⟩
      · intro i j p q hp hq he hn
        rw [List.getElem?_append] at hp hq
        split at hp <;> split at hq
        · exact ht.once i j p q hp hq he hn
        · exfalso
          have hj : q = (name, start + (t.length : Int)) := by
            have := List.mem_of_getElem? hq
            simpa using this
          subst hj
          have := lookup_none hl (fun h0 => hn (he.trans h0)) p (List.mem_of_getElem? hp)
          exact this he
        · exfalso
          have hj : p = (name, start + (t.length : Int)) := by
            have := List.mem_of_getElem? hp
            simpa using this
          subst hj
          exact lookup_none hl hn q (List.mem_of_getElem? hq) he.symm
        · next hi hj =>
          have hi' : i < t.length + 1 := by
            by_contra hne
            rw [List.getElem?_eq_none (by simp; omega)] at hp
            cases hp
          have hj' : j < t.length + 1 := by
            by_contra hne
            rw [List.getElem?_eq_none (by simp; omega)] at hq
            cases hq
          omega

theorem styleFor_not_ub (start max : Int) (t : Table) (name : Str) : styleFor start max t name ≠ .ub := by
  unfold styleFor
  split
  · simp
  · simp only; split <;> simp

/-! ### Sequences of requests -/

/-- Requests made one after the other. -/
def requests (start max : Int) (t : Table) : List Str → Outcome (Table × List Int)
  | [] => .ok (t, [])
  | n :: ns => do
    let (s, t) ← styleFor start max t n
    let (t, ss) ← requests start max t ns
    pure (t, s :: ss)

/-- What a sequence of requests gives. -/
theorem requests_ok {start max : Int} (ns : List Str) : ∀ {t T : Table} {ss : List Int}, Sound start max t →
    requests start max t ns = .ok (T, ss) →
    Sound start max T ∧ t <+: T ∧ ss.length = ns.length ∧
    ∀ (i : Nat) (n : Str) (s : Int), ns[i]? = some n → ss[i]? = some s →
      ∃ p : Nat, T[p]? = some (n, s) ∧ (n = [] → t.length ≤ p) ∧
        ∀ (j : Nat) (s' : Int), j < i → ns[j]? = some ([] : Str) → ss[j]? = some s' → s' ≠ s ∨ n ≠ [] := by
  induction ns with
  | nil =>
    intro t T ss ht h
    simp only [requests, Outcome.ok.injEq, Prod.mk.injEq] at h
    obtain ⟨rfl, rfl⟩ := h
    exact ⟨ht, List.prefix_rfl, rfl, fun i n s hn => by simp at hn⟩
  | cons n ns ih =>
    intro t T ss ht h
    unfold requests at h
    rw [Outcome.bind_eq_ok] at h
    obtain ⟨⟨s, t1⟩, h1, h⟩ := h
    rw [Outcome.bind_eq_ok] at h
    obtain ⟨⟨T', ss'⟩, h2, h⟩ := h
    simp only [Outcome.pure_eq, Outcome.ok.injEq, Prod.mk.injEq] at h
    obtain ⟨rfl, rfl⟩ := h
    obtain ⟨ht1, hc⟩ := styleFor_ok ht h1
    obtain ⟨hT, hp, hl, hi⟩ := ih ht1 h2
    have ht1' : t <+: t1 := by
      rcases hc with ⟨rfl, _⟩ | ⟨rfl, _⟩
      · exact List.prefix_rfl
      · exact List.prefix_append _ _
    have hle := ht1'.length_le
    have hget : ∀ {a b : Table} {p : Nat} {x}, a <+: b → a[p]? = some x → b[p]? = some x := by
      intro a b p x hab hx
      obtain ⟨c, rfl⟩ := hab
      rw [List.getElem?_append_left]
      · exact hx
      · by_contra hne
        rw [List.getElem?_eq_none (by omega)] at hx
        cases hx
    refine ⟨hT, ht1'.trans hp, by simp [hl], ?_⟩
    intro i m u hm hu
    cases i with
    | zero =>
      simp only [List.getElem?_cons_zero, Option.some.injEq] at hm hu
      subst hm hu
      rcases hc with ⟨rfl, hne, p, hpp⟩ | ⟨rfl, rfl, _⟩
      · exact ⟨p, hget hp hpp, fun h0 => absurd h0 hne, fun j s' hj => absurd hj (by omega)⟩
      · refine ⟨t.length, hget hp (by simp), fun _ => Nat.le_refl _, fun j s' hj => absurd hj (by omega)⟩
    | succ i =>
      simp only [List.getElem?_cons_succ] at hm hu
      obtain ⟨p, hpp, hpl, hpj⟩ := hi i m u hm hu
      refine ⟨p, hpp, fun h0 => le_trans hle (hpl h0), ?_⟩
      intro j s' hj hnj hsj
      cases j with
      | succ j =>
        simp only [List.getElem?_cons_succ] at hnj hsj
        exact hpj j s' (by omega) hnj hsj
      | zero =>
        simp only [List.getElem?_cons_zero, Option.some.injEq] at hnj hsj
        subst hnj hsj
        by_cases hm0 : m = []
        · left
          rcases hc with ⟨_, hne, _⟩ | ⟨h3, h4, _⟩
          · exact absurd rfl hne
          · have h5 := hpl hm0
            have h6 := (hT.style p _ hpp).1
            rw [h3] at h5
            simp only [List.length_append, List.length_singleton] at h5
            simp only at h6
            omega
        · right; exact hm0

/-- Styles are the same for the same name, and only then. -/
theorem requests_same {start max : Int} {ns : List Str} {t T : Table} {ss : List Int} (ht : Sound start max t)
    (h : requests start max t ns = .ok (T, ss)) {i j : Nat} {n m : Str} {s u : Int} (hi : ns[i]? = some n)
    (hs : ss[i]? = some s) (hj : ns[j]? = some m) (hu : ss[j]? = some u) :
    s = u ↔ (n = m ∧ n ≠ []) ∨ i = j := by
  obtain ⟨hT, _, _, hreq⟩ := requests_ok ns ht h
  obtain ⟨p, hp, _, hpj⟩ := hreq i n s hi hs
  obtain ⟨q, hq, _, hqj⟩ := hreq j m u hj hu
  have hps := (hT.style p _ hp).1
  have hqs := (hT.style q _ hq).1
  simp only at hps hqs
  constructor
  · intro he
    have hpq : p = q := by omega
    subst hpq
    rw [hp] at hq
    simp only [Option.some.injEq, Prod.mk.injEq] at hq
    obtain ⟨hnm, _⟩ := hq
    by_cases hn : n = []
    · right
      by_contra hne
      rcases Nat.lt_or_gt_of_ne hne with hlt | hgt
      · rcases hqj i s hlt (by rw [hi, hn]) hs with h1 | h1
        · exact h1 he
        · exact h1 (by rw [← hnm, hn])
      · rcases hpj j u hgt (by rw [hj, ← hnm, hn]) hu with h1 | h1
        · exact h1 he.symm
        · exact h1 hn
    · exact .inl ⟨hnm, hn⟩
  · rintro (⟨hnm, hn⟩ | rfl)
    · have hpq := hT.once p q _ _ hp hq (by simpa using hnm) (by simpa using hn)
      subst hpq
      rw [hp] at hq
      simp only [Option.some.injEq, Prod.mk.injEq] at hq
      exact hq.2
    · rw [hs] at hu
      exact Option.some.inj hu

end Verif.Styles
