import Verif.BrushList.Spec
import Mathlib.Tactic.FinCases
import Mathlib.Data.Fintype.Basic
import Mathlib.Data.Fin.VecNotation
import Mathlib.Tactic.NormNum
import Mathlib.Algebra.Order.Field.Rat
import Mathlib.Tactic.Linarith
import Mathlib.Data.List.Nodup

/-!
C222: the list of brushes of `-wrbrushes`.
-/

namespace Verif.BrushList

open Contents Contents.Q1
open OnlyEnts (get ieq removed)

/-! ### One brush -/

/-- A plane is left out exactly if its normal has a coordinate 1 or -1. -/
theorem normalize_axial (q : Plane) : (normalize q).2 = true ↔ ∃ i, q.n i = 1 ∨ q.n i = -1 := by
  unfold normalize normalizeAxis
  constructor
  · intro h
    by_cases h0 : q.n 0 = 1 ∨ q.n 0 = -1
    · exact ⟨0, h0⟩
    by_cases h1 : q.n 1 = 1 ∨ q.n 1 = -1
    · exact ⟨1, h1⟩
    by_cases h2 : q.n 2 = 1 ∨ q.n 2 = -1
    · exact ⟨2, h2⟩
    rw [if_neg h0, if_neg h1, if_neg h2] at h
    cases h
  · rintro ⟨i, hi⟩
    by_cases h0 : q.n 0 = 1 ∨ q.n 0 = -1
    · rw [if_pos h0]
    by_cases h1 : q.n 1 = 1 ∨ q.n 1 = -1
    · rw [if_neg h0, if_pos h1]
    by_cases h2 : q.n 2 = 1 ∨ q.n 2 = -1
    · rw [if_neg h0, if_neg h1, if_pos h2]
    exfalso
    fin_cases i
    · exact h0 hi
    · exact h1 hi
    · exact h2 hi

theorem normalize_other {q : Plane} (h : (normalize q).2 = false) : (normalize q).1 = q := by
  unfold normalize normalizeAxis at h ⊢
  by_cases h0 : q.n 0 = 1 ∨ q.n 0 = -1
  · rw [if_pos h0] at h; cases h
  by_cases h1 : q.n 1 = 1 ∨ q.n 1 = -1
  · rw [if_neg h0, if_pos h1] at h; cases h
  by_cases h2 : q.n 2 = 1 ∨ q.n 2 = -1
  · rw [if_neg h0, if_neg h1, if_pos h2] at h; cases h
  rw [if_neg h0, if_neg h1, if_neg h2]

/-- Every plane of the map is along an axis if it nearly is. -/
theorem normalize_normal (q : Plane) : Spec.Normal (normalize q).1 := by
  have key : ∀ (i : Fin 3), Spec.Normal ⟨fun j => if j = i then q.n i else 0, q.dist⟩ := by
    intro i a b ha hb
    by_cases hai : a = i
    · subst hai
      show (if b = a then _ else (0 : ℚ)) = 0
      rw [if_neg hb]
    · exfalso
      have : (if a = i then q.n i else (0 : ℚ)) = 0 := if_neg hai
      dsimp only at ha
      rw [this] at ha
      rcases ha with h | h <;> norm_num at h
  unfold normalize normalizeAxis
  by_cases h0 : q.n 0 = 1 ∨ q.n 0 = -1
  · rw [if_pos h0]; exact key 0
  by_cases h1 : q.n 1 = 1 ∨ q.n 1 = -1
  · rw [if_neg h0, if_pos h1]; exact key 1
  by_cases h2 : q.n 2 = 1 ∨ q.n 2 = -1
  · rw [if_neg h0, if_neg h1, if_pos h2]; exact key 2
  rw [if_neg h0, if_neg h1, if_neg h2]
  intro a b ha _
  exfalso
  fin_cases a
  · exact h0 ha
  · exact h1 ha
  · exact h2 ha

/-- A listed brush has the points of the brush of the map, although the planes along the axes are left out, if its bounds are the least
box around it. -/
theorem same_points {b : Brush} {l : Listed} (h : listBrush b = .ok l) (hn : ∀ q ∈ b.planes, Spec.Normal q) (ht : Spec.Tight b)
    (p : Fin 3 → ℚ) : Spec.InListed l p ↔ Spec.InBrush b p := by
  unfold listBrush at h
  obtain ⟨c, _, h⟩ := Outcome.bind_eq_ok.1 h
  injection h with h
  subst h
  constructor
  · rintro ⟨hbox, hf⟩ q hq
    by_cases hx : (normalize q).2 = true
    · obtain ⟨i, hi⟩ := (normalize_axial q).1 hx
      have hz := fun j => hn q hq i j hi
      -- a point of the brush that is as far along this axis
      obtain ⟨⟨p1, hp1, e1⟩, ⟨p2, hp2, e2⟩⟩ := ht.2 i
      have b1 := hp1 q hq
      have b2 := hp2 q hq
      have hb := hbox i
      unfold Spec.Behind at b1 b2 ⊢
      dsimp only at hb
      rw [← e1, ← e2] at hb
      fin_cases i
      · have z1 := hz 1 (by decide)
        have z2 := hz 2 (by decide)
        simp only [z1, z2, zero_mul, add_zero] at *
        rcases hi with hi | hi
        · rw [show q.n 0 = 1 from hi] at *; have := hb.2; dsimp at *; linarith
        · rw [show q.n 0 = -1 from hi] at *; have := hb.1; dsimp at *; linarith
      · have z1 := hz 0 (by decide)
        have z2 := hz 2 (by decide)
        simp only [z1, z2, zero_mul, add_zero, zero_add] at *
        rcases hi with hi | hi
        · rw [show q.n 1 = 1 from hi] at *; have := hb.2; dsimp at *; linarith
        · rw [show q.n 1 = -1 from hi] at *; have := hb.1; dsimp at *; linarith
      · have z1 := hz 0 (by decide)
        have z2 := hz 1 (by decide)
        simp only [z1, z2, zero_mul, add_zero, zero_add] at *
        rcases hi with hi | hi
        · rw [show q.n 2 = 1 from hi] at *; have := hb.2; dsimp at *; linarith
        · rw [show q.n 2 = -1 from hi] at *; have := hb.1; dsimp at *; linarith
    · have hx' : (normalize q).2 = false := by simpa using hx
      exact hf q (List.mem_map.2 ⟨q, List.mem_filter.2 ⟨hq, by simp [hx']⟩, normalize_other hx'⟩)
  · intro hp
    refine ⟨fun i => ht.1 p hp i, fun q hq => ?_⟩
    obtain ⟨q', hq', rfl⟩ := List.mem_map.1 hq
    obtain ⟨hm, hx⟩ := List.mem_filter.1 hq'
    have hx' : (normalize q').2 = false := by simpa using hx
    rw [normalize_other hx']
    exact hp q' hm

/-- Bounds that are too small or too great change the brush: the box is all that is left of a cube. -/
theorem box_matters {b : Brush} {l : Listed} (h : listBrush b = .ok l) : l.mins = b.mins ∧ l.maxs = b.maxs := by
  unfold listBrush at h
  obtain ⟨c, _, h⟩ := Outcome.bind_eq_ok.1 h
  injection h with h
  subst h
  exact ⟨rfl, rfl⟩

/-- The contents listed: clips before all else. `qbsp` ends with an exception if they are not Quake's. -/
theorem contents_value (c : Contents) : listContents c =
    if tst c SOLID = false ∧ tst c SKY = false ∧ (tst c DETAIL_WALL = true ∨ tst c WINDOW = true ∨ tst c AUX = true ∨
      (tst c LAVA = false ∧ tst c SLIME = false ∧ tst c WATER = false ∧ tst c MIST = true)) then .error
    else .ok (Spec.contents c) := by
  unfold listContents toNative Spec.contents clip
  cases tst c SOLID <;> cases tst c SKY <;> cases tst c DETAIL_WALL <;> cases tst c WINDOW <;> cases tst c AUX <;>
    cases tst c LAVA <;> cases tst c SLIME <;> cases tst c WATER <;> cases tst c MIST <;> cases isClip c <;> rfl

example : Spec.contents PLAYERCLIP = -8 ∧ Spec.contents (WATER ||| DETAIL) = -3 := by decide +kernel

/-- In Quake II liquids are listed as solid. -/
theorem quake2_solid_liquids : listContentsQ2 WATER = .ok (-2) ∧ listContentsQ2 LAVA = .ok (-2) ∧ listContentsQ2 MIST = .ok (-2) := by
  decide +kernel

/-- There clips are listed as clips, and everything else as solid. -/
theorem quake2_contents {c : Contents} {n} (h : Q2.toNative c = .ok n) (hn : 0 ≤ n.toInt) :
    listContentsQ2 c = .ok (if tst c (PLAYERCLIP ||| MONSTERCLIP) then -8 else -2) := by
  unfold listContentsQ2 clip
  rw [h]
  simp only [Outcome.ok_bind]
  rw [if_neg (by omega)]
  split_ifs <;> rfl

example : ∃ n, Q2.toNative PLAYERCLIP = .ok n ∧ 0 ≤ n.toInt ∧ tst PLAYERCLIP (PLAYERCLIP ||| MONSTERCLIP) = true :=
  ⟨_, rfl, by decide +kernel, by decide +kernel⟩

/-! ### The list -/

theorem modelOf_some {e : Entity} {m : Option Int} (h : modelOf e = .ok m) (n : Int) (hr : removed (get e.keys "classname".toList) = false) :
    m = some n ↔ Spec.HasModel e n := by
  unfold modelOf at h
  unfold Spec.HasModel
  rcases hg : get e.keys "model".toList with _ | ⟨c, t⟩
  · rw [hg] at h
    cases h
    constructor
    · intro h; cases h
    · rintro ⟨_, t, ht, _⟩; cases ht
  · rw [hg] at h
    by_cases hc : c = '*'
    · subst hc
      change (match stoi t with | some n => Outcome.ok (some n) | none => Outcome.error) = _ at h
      rcases hs : stoi t with _ | k
      · rw [hs] at h; cases h
      · rw [hs] at h
        cases h
        constructor
        · rintro ⟨rfl⟩; exact ⟨hr, t, rfl, hs⟩
        · rintro ⟨_, t', ht', hs'⟩
          cases ht'
          rw [← hs, hs']
    · have h' : (Outcome.ok none : Outcome (Option Int)) = .ok m := by
        rw [← h]
        split
        · rename_i heq; cases heq; exact absurd rfl hc
        · rfl
      cases h'
      constructor
      · intro h; cases h
      · rintro ⟨_, t', ht', _⟩
        cases ht'
        exact absurd rfl hc

theorem mem_addModel {others : List Entity} {e : Entity} {n : Int} {rest r : List (Int × List Listed)}
    (h : addModel others e n rest = .ok r) (x : Int × List Listed) :
    x ∈ r ↔ (x.1 = n ∧ (e.brushes ++ if n = 0 then fromGroups others else []) ≠ [] ∧
      listBrushes (e.brushes ++ if n = 0 then fromGroups others else []) = .ok x.2) ∨ x ∈ rest := by
  unfold addModel at h
  dsimp only at h
  generalize (e.brushes ++ if n = 0 then fromGroups others else []) = bs at h ⊢
  by_cases hb : bs = []
  · rw [if_pos hb] at h
    cases h
    simp [hb]
  · rw [if_neg hb] at h
    obtain ⟨l, hl, h⟩ := Outcome.bind_eq_ok.1 h
    cases h
    rw [List.mem_cons, hl]
    obtain ⟨a, b⟩ := x
    constructor
    · rintro (h | h)
      · cases h; exact Or.inl ⟨rfl, hb, rfl⟩
      · exact Or.inr h
    · rintro (⟨h1, _, h3⟩ | h)
      · left
        injection h3 with h3
        dsimp only at h1 h3
        rw [h1, h3]
      · exact Or.inr h

theorem mem_fromEntities {others t : List Entity} {r : List (Int × List Listed)} (h : fromEntities others t = .ok r)
    (x : Int × List Listed) :
    x ∈ r ↔ ∃ e ∈ t, Spec.HasModel e x.1 ∧ (e.brushes ++ if x.1 = 0 then fromGroups others else []) ≠ [] ∧
      listBrushes (e.brushes ++ if x.1 = 0 then fromGroups others else []) = .ok x.2 := by
  induction t generalizing r with
  | nil => cases h; simp
  | cons e t ih =>
    rw [fromEntities] at h
    by_cases hr : removed (get e.keys "classname".toList) = true
    · rw [if_pos hr] at h
      rw [ih h]
      constructor
      · rintro ⟨a, ha, hh⟩; exact ⟨a, List.mem_cons_of_mem _ ha, hh⟩
      · rintro ⟨a, ha, hh⟩
        rcases List.mem_cons.1 ha with rfl | ha
        · exact absurd (hh.1.1.symm.trans hr) (by simp)
        · exact ⟨a, ha, hh⟩
    · rw [if_neg hr] at h
      have hr' : removed (get e.keys "classname".toList) = false := by simpa using hr
      obtain ⟨m, hm, h⟩ := Outcome.bind_eq_ok.1 h
      have hmod := fun n => modelOf_some hm n hr'
      rcases m with _ | n
      · dsimp only at h
        rw [ih h]
        constructor
        · rintro ⟨a, ha, hh⟩; exact ⟨a, List.mem_cons_of_mem _ ha, hh⟩
        · rintro ⟨a, ha, hh⟩
          rcases List.mem_cons.1 ha with rfl | ha
          · exact absurd ((hmod _).2 hh.1) (by simp)
          · exact ⟨a, ha, hh⟩
      · dsimp only at h
        obtain ⟨rest, hrest, h⟩ := Outcome.bind_eq_ok.1 h
        rw [mem_addModel h, ih hrest]
        constructor
        · rintro (⟨h1, h2, h3⟩ | ⟨a, ha, hh⟩)
          · refine ⟨e, by simp, ?_, ?_, ?_⟩
            · rw [h1]; exact (hmod n).1 rfl
            · rw [h1]; exact h2
            · rw [h1]; exact h3
          · exact ⟨a, List.mem_cons_of_mem _ ha, hh⟩
        · rintro ⟨a, ha, hh⟩
          rcases List.mem_cons.1 ha with rfl | ha
          · left
            have := (hmod _).2 hh.1
            injection this with this
            rw [this]
            exact ⟨rfl, hh.2.1, hh.2.2⟩
          · exact Or.inr ⟨a, ha, hh⟩

theorem listBrushes_ok {bs : List Brush} {l : List Listed} (h : listBrushes bs = .ok l) :
    l.length = bs.length ∧ ∀ i (h1 : i < bs.length) (h2 : i < l.length), listBrush bs[i] = .ok l[i] := by
  induction bs generalizing l with
  | nil => cases h; simp
  | cons b t ih =>
    rw [listBrushes] at h
    obtain ⟨x, hx, h⟩ := Outcome.bind_eq_ok.1 h
    obtain ⟨y, hy, h⟩ := Outcome.bind_eq_ok.1 h
    cases h
    obtain ⟨h1, h2⟩ := ih hy
    refine ⟨by simp [h1], fun i hi hi' => ?_⟩
    cases i with
    | zero => exact hx
    | succ i => exact h2 i (by simpa using hi) (by simpa using hi')

theorem removed_iff (c : OnlyEnts.Str) : (removed c && !ieq c "func_detail_illusionary".toList && !ieq c "func_illusionary_visblocker".toList) = true
    ↔ Spec.Group c := by
  have nd : ∀ a b : OnlyEnts.Str, a.map Char.toLower ≠ b.map Char.toLower → ieq c a = true → ieq c b = false := by
    intro a b hab ha
    unfold ieq at ha ⊢
    simp only [decide_eq_true_eq, decide_eq_false_iff_not] at ha ⊢
    intro hb
    exact hab (ha.symm.trans hb)
  unfold Spec.Group removed
  constructor
  · intro h
    simp only [Bool.and_eq_true, Bool.or_eq_true, Bool.not_eq_true'] at h
    obtain ⟨⟨h1, h2⟩, h3⟩ := h
    rw [h2, h3] at h1
    simp only [Bool.false_eq_true, or_false] at h1
    rcases h1 with ((h | h) | h) | h
    · exact Or.inl h
    · exact Or.inr (Or.inl h)
    · exact Or.inr (Or.inr (Or.inl h))
    · exact Or.inr (Or.inr (Or.inr h))
  · intro h
    simp only [Bool.and_eq_true, Bool.or_eq_true, Bool.not_eq_true']
    rcases h with h | h | h | h
    · exact ⟨⟨Or.inl (Or.inl (Or.inl (Or.inl (Or.inl h)))), nd _ _ (by decide +kernel) h⟩, nd _ _ (by decide +kernel) h⟩
    · exact ⟨⟨Or.inl (Or.inl (Or.inl (Or.inl (Or.inr h)))), nd _ _ (by decide +kernel) h⟩, nd _ _ (by decide +kernel) h⟩
    · exact ⟨⟨Or.inl (Or.inl (Or.inr h)), nd _ _ (by decide +kernel) h⟩, nd _ _ (by decide +kernel) h⟩
    · exact ⟨⟨Or.inl (Or.inr h), nd _ _ (by decide +kernel) h⟩, nd _ _ (by decide +kernel) h⟩

/-- The brushes that are listed with the world are those of the groups and of the details that can be touched. -/
theorem mem_fromGroups (others : List Entity) (b : Brush) :
    b ∈ fromGroups others ↔ ∃ e ∈ others, Spec.Group (get e.keys "classname".toList) ∧ b ∈ e.brushes := by
  unfold fromGroups
  rw [List.mem_flatMap]
  constructor
  · rintro ⟨e, he, hb⟩
    obtain ⟨h1, h2⟩ := List.mem_filter.1 he
    exact ⟨e, h1, (removed_iff _).1 h2, hb⟩
  · rintro ⟨e, h1, h2, hb⟩
    exact ⟨e, List.mem_filter.2 ⟨h1, (removed_iff _).2 h2⟩, hb⟩

/-- What is listed of the models that are not the world's: one list for each entity with such a model and brushes, with all its brushes. -/
theorem models_listed {w : Entity} {t : List Entity} {r : List (Int × List Listed)} (h : brushList (w :: t) = .ok r)
    (n : Int) (hn : n ≠ 0) (l : List Listed) :
    (n, l) ∈ r ↔ ∃ e ∈ t, Spec.HasModel e n ∧ e.brushes ≠ [] ∧ listBrushes e.brushes = .ok l := by
  unfold brushList at h
  obtain ⟨rest, hr, h⟩ := Outcome.bind_eq_ok.1 h
  rw [mem_addModel h, mem_fromEntities hr]
  simp only [hn, if_false, List.append_nil, false_and, false_or]

/-- The world comes first, with its brushes and those of the groups, if there are any. -/
theorem world_listed {w : Entity} {t : List Entity} {r : List (Int × List Listed)} (h : brushList (w :: t) = .ok r)
    (hb : w.brushes ++ fromGroups t ≠ []) : ∃ l r', r = (0, l) :: r' ∧ listBrushes (w.brushes ++ fromGroups t) = .ok l := by
  unfold brushList at h
  obtain ⟨rest, hr, h⟩ := Outcome.bind_eq_ok.1 h
  unfold addModel at h
  dsimp only at h
  rw [if_pos rfl, if_neg hb] at h
  obtain ⟨l, hl, h⟩ := Outcome.bind_eq_ok.1 h
  cases h
  exact ⟨l, rest, rfl, hl⟩

/-- Each model is listed once, if no entity calls the world its model and no two entities have the same one. -/
theorem listed_once_partial {w : Entity} {t : List Entity} {r : List (Int × List Listed)} (h : brushList (w :: t) = .ok r)
    (h0 : ∀ e ∈ t, ¬ Spec.HasModel e 0)
    (hd : t.Pairwise fun a b => a.brushes ≠ [] → b.brushes ≠ [] → ∀ n, Spec.HasModel a n → ¬ Spec.HasModel b n) :
    (r.map Prod.fst).Nodup := by
  unfold brushList at h
  obtain ⟨rest, hr, h⟩ := Outcome.bind_eq_ok.1 h
  have hrest : (rest.map Prod.fst).Nodup := by
    have gen : ∀ (s : List Entity) (rest : List (Int × List Listed)), fromEntities t s = .ok rest →
        (∀ e ∈ s, ¬ Spec.HasModel e 0) →
        s.Pairwise (fun a b => a.brushes ≠ [] → b.brushes ≠ [] → ∀ n, Spec.HasModel a n → ¬ Spec.HasModel b n) →
        (rest.map Prod.fst).Nodup := by
      intro s
      induction s with
      | nil => intro rest h _ _; cases h; exact List.nodup_nil
      | cons e s ih =>
        intro rest h h0 hd
        obtain ⟨hd1, hd2⟩ := List.pairwise_cons.1 hd
        have h0' : ∀ e ∈ s, ¬ Spec.HasModel e 0 := fun x hx => h0 x (List.mem_cons_of_mem _ hx)
        rw [fromEntities] at h
        by_cases hrm : removed (get e.keys "classname".toList) = true
        · rw [if_pos hrm] at h
          exact ih rest h h0' hd2
        rw [if_neg hrm] at h
        obtain ⟨m, hm, h⟩ := Outcome.bind_eq_ok.1 h
        have hmod := fun n => modelOf_some hm n (by simpa using hrm)
        rcases m with _ | n
        · exact ih rest h h0' hd2
        · dsimp only at h
          obtain ⟨rest', hrest', h⟩ := Outcome.bind_eq_ok.1 h
          have hnod := ih rest' hrest' h0' hd2
          have hen := (hmod n).1 rfl
          have hn0 : n ≠ 0 := by
            rintro rfl
            exact h0 e (by simp) hen
          unfold addModel at h
          dsimp only at h
          rw [if_neg hn0, List.append_nil] at h
          by_cases hb : e.brushes = []
          · rw [if_pos hb] at h
            cases h
            exact hnod
          · rw [if_neg hb] at h
            obtain ⟨l, hl, h⟩ := Outcome.bind_eq_ok.1 h
            cases h
            rw [List.map_cons, List.nodup_cons]
            refine ⟨?_, hnod⟩
            intro hmem
            obtain ⟨x, hx, hxn⟩ := List.mem_map.1 hmem
            obtain ⟨a, ha, hma, hne, _⟩ := (mem_fromEntities hrest' x).1 hx
            have hxn' : x.1 = n := hxn
            rw [hxn', if_neg hn0, List.append_nil] at hne
            rw [hxn'] at hma
            exact hd1 a ha hb hne n hen hma
    exact gen t rest hr h0 hd
  unfold addModel at h
  dsimp only at h
  rw [if_pos rfl] at h
  split_ifs at h with hb
  · cases h; exact hrest
  · obtain ⟨l, hl, h⟩ := Outcome.bind_eq_ok.1 h
    cases h
    rw [List.map_cons, List.nodup_cons]
    refine ⟨?_, hrest⟩
    intro hmem
    obtain ⟨x, hx, hxn⟩ := List.mem_map.1 hmem
    obtain ⟨a, ha, hma, _⟩ := (mem_fromEntities hr x).1 hx
    have hxn' : x.1 = 0 := hxn
    rw [hxn'] at hma
    exact h0 a ha hma

/-- An entity that is not added to the world and has a key `model` that begins with `*` but is not followed by a number ends `qbsp`,
whether it has brushes or not. -/
theorem bad_model_ends (w : Entity) (a b : List Entity) (e : Entity) (t : OnlyEnts.Str)
    (hc : removed (get e.keys "classname".toList) = false) (hm : get e.keys "model".toList = '*' :: t) (hs : stoi t = none) (r) :
    brushList (w :: (a ++ e :: b)) ≠ .ok r := by
  intro h
  unfold brushList at h
  obtain ⟨rest, hr, _⟩ := Outcome.bind_eq_ok.1 h
  have gen : ∀ (o a : List Entity) (rest), fromEntities o (a ++ e :: b) = .ok rest → False := by
    intro o a
    induction a with
    | nil =>
      intro rest hr
      rw [List.nil_append, fromEntities, if_neg (by rw [hc]; exact Bool.false_ne_true)] at hr
      have : modelOf e = .error := by
        unfold modelOf
        rw [hm]
        show (match stoi t with | some n => Outcome.ok (some n) | none => Outcome.error) = _
        rw [hs]
      rw [this] at hr
      cases hr
    | cons x a ih =>
      intro rest hr
      rw [List.cons_append, fromEntities] at hr
      split_ifs at hr
      · exact ih rest hr
      · obtain ⟨m, _, hr⟩ := Outcome.bind_eq_ok.1 hr
        rcases m with _ | n
        · exact ih rest hr
        · obtain ⟨rest', hr', _⟩ := Outcome.bind_eq_ok.1 hr
          exact ih rest' hr'
  exact gen _ _ _ hr

def box (c : Contents) : Brush := ⟨c, fun _ => 0, fun _ => 1,
  [⟨![1, 0, 0], 1⟩, ⟨![-1, 0, 0], 0⟩, ⟨![0, 1, 0], 1⟩, ⟨![0, -1, 0], 0⟩, ⟨![0, 0, 1], 1⟩, ⟨![0, 0, -1], 0⟩, ⟨![3/5, 4/5, 0], 6/5⟩]⟩
def ent (cls : String) (model : String) (bs : List Brush) : Entity :=
  ⟨[("classname".toList, cls.toList), ("model".toList, model.toList)], bs⟩

/-- Each model is not always listed once: a point entity that calls the world its model lists the groups again, as model 0. -/
theorem world_twice : ∃ es r, brushList es = .ok r ∧ r.map Prod.fst = [0, 0] :=
  ⟨[ent "worldspawn" "" [box SOLID], ent "func_group" "" [box SOLID], ent "misc_model" "*0" []], _, rfl, by decide +kernel⟩

/-- A world, a group, an illusion, a door and a light: two models, the first with two brushes, the second with one. -/
example : ∃ r, brushList [ent "worldspawn" "" [box SOLID], ent "func_group" "" [box WATER], ent "func_detail_illusionary" "" [box SOLID],
      ent "func_door" "*1" [box PLAYERCLIP], ent "light" "" []] = .ok r ∧
    r.map (fun x => (x.1, x.2.map fun l => (l.contents, l.faces.length))) = [(0, [(-2, 1), (-3, 1)]), (1, [(-8, 1)])] :=
  ⟨_, rfl, by decide +kernel⟩

example : removed "misc_model".toList = false ∧ stoi "x".toList = none ∧ stoi "12 ".toList = some 12 := by decide +kernel

/-- A cut cube with its bounds meets what `same_points` asks for. -/
example : (∀ q ∈ (box SOLID).planes, Spec.Normal q) ∧ Spec.Tight (box SOLID) := by
  have hp : ∀ p, Spec.InBrush (box SOLID) p ↔ (p 0 ≤ 1 ∧ 0 ≤ p 0 ∧ p 1 ≤ 1 ∧ 0 ≤ p 1 ∧ p 2 ≤ 1 ∧ 0 ≤ p 2 ∧
      3/5 * p 0 + 4/5 * p 1 ≤ 6/5) := by
    intro p
    simp [Spec.InBrush, Spec.Behind, box]
  refine ⟨?_, ?_, ?_⟩
  · intro q hq
    simp only [box, List.mem_cons, List.not_mem_nil, or_false] at hq
    intro i j hi hj
    rcases hq with rfl | rfl | rfl | rfl | rfl | rfl | rfl <;> fin_cases i <;> fin_cases j <;> simp at hi hj ⊢ <;> norm_num at hi
  · intro p h i
    have := (hp p).1 h
    show 0 ≤ p i ∧ p i ≤ 1
    fin_cases i
    · exact ⟨this.2.1, this.1⟩
    · exact ⟨this.2.2.2.1, this.2.2.1⟩
    · exact ⟨this.2.2.2.2.2.1, this.2.2.2.2.1⟩
  · intro i
    refine ⟨⟨fun _ => 0, (hp _).2 (by norm_num), rfl⟩, ⟨fun j => if j = i then 1 else 0, (hp _).2 ?_, if_pos rfl⟩⟩
    fin_cases i <;> simp <;> norm_num

end Verif.BrushList
