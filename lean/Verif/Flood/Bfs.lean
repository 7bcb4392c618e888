import Verif.Flood.Spec

/-! Lemmas: breadth-first search and the walk back along the marks. -/

namespace Verif.Flood

open Spec

/-! ## The generic search -/

/-- Both search loops in one: `unseen` is the mark of a leaf that was not visited. -/
def bfs (nb : Nat → List Nat) (unseen : Int) : Nat → List (Nat × Int) → (Nat → Int) → Option (Nat → Int)
  | _, [], m => some m
  | 0, _ :: _, _ => none
  | fuel + 1, (v, d) :: q, m =>
    if m v = unseen then bfs nb unseen fuel (q ++ (nb v).map fun w => (w, d + 1)) (setAt m v d)
    else bfs nb unseen fuel q m

/-- The leafs behind the passable portals. -/
def nb (pass : Portal → Bool) (ps : List Portal) (v : Nat) : List Nat := (neighbours pass ps v).map (·.2)

theorem occLoop_bfs (pass : Portal → Bool) (ps : List Portal) : ∀ fuel q m,
    occLoop pass ps fuel q m = bfs (nb pass ps) 0 fuel q m := by
  intro fuel
  induction fuel with
  | zero => intro q m; cases q <;> rfl
  | succ fuel ih =>
    intro q m
    cases q with
    | nil => rfl
    | cons e q =>
      obtain ⟨v, d⟩ := e
      simp only [occLoop, bfs, ih, nb, List.map_map]
      rfl

theorem voidLoop_bfs (pass : Portal → Bool) (ps : List Portal) : ∀ fuel visited q m,
    (∀ v, v ∈ visited ↔ m v ≠ -1) → (∀ e ∈ q, e.2 ≥ 0) →
    voidLoop pass ps fuel visited q m = bfs (nb pass ps) (-1) fuel q m := by
  intro fuel
  induction fuel with
  | zero => intro visited q m _ _; cases q <;> rfl
  | succ fuel ih =>
    intro visited q m hv hq
    cases q with
    | nil => rfl
    | cons e q =>
      obtain ⟨v, d⟩ := e
      have hd : d ≥ 0 := hq (v, d) (by simp)
      have hq' : ∀ e ∈ q, e.2 ≥ 0 := fun e he => hq e (by simp [he])
      by_cases h : m v = -1
      · have hn : v ∉ visited := fun hm => (hv v).1 hm h
        simp only [voidLoop, bfs]
        rw [if_neg hn, if_pos h, ih]
        · simp only [nb, List.map_map]; rfl
        · intro u
          by_cases hu : u = v
          · subst hu; simp [setAt]; omega
          · simp [setAt, hu, hv u]
        · intro e he
          rcases List.mem_append.1 he with he | he
          · exact hq' e he
          · obtain ⟨n, -, rfl⟩ := List.mem_map.1 he
            simp only; omega
      · simp only [voidLoop, bfs]
        rw [if_pos ((hv v).2 h), if_neg h, ih visited q m hv hq']

/-- A walk of `k` steps. -/
inductive Walk (nb : Nat → List Nat) (s : Nat) : Nat → Nat → Prop
  | zero : Walk nb s 0 s
  | snoc {k u w : Nat} : Walk nb s k u → w ∈ nb u → Walk nb s (k + 1) w

/-- The invariant of the search. -/
structure Inv (nb : Nat → List Nat) (unseen base : Int) (S : List Nat) (q : List (Nat × Int)) (m : Nat → Int) :
    Prop where
  queue : ∀ e ∈ q, ∃ s k, s ∈ S ∧ Walk nb s k e.1 ∧ e.2 = base + k
  marked : ∀ v, m v ≠ unseen → ∃ s k, s ∈ S ∧ Walk nb s k v ∧ m v = base + k
  level : ∃ b, (∀ e ∈ q, b ≤ e.2 ∧ e.2 ≤ b + 1) ∧ ∀ v, m v ≠ unseen → m v ≤ b
  sorted : q.Pairwise fun a b => a.2 ≤ b.2
  closed : ∀ u, m u ≠ unseen → ∀ w ∈ nb u, (m w ≠ unseen ∧ m w ≤ m u + 1) ∨ (w, m u + 1) ∈ q
  starts : ∀ s ∈ S, (m s ≠ unseen ∧ m s ≤ base) ∨ (s, base) ∈ q

theorem bfs_inv {nb : Nat → List Nat} {unseen base : Int} (hb : unseen < base) {S : List Nat} :
    ∀ fuel q m m', Inv nb unseen base S q m → bfs nb unseen fuel q m = some m' → Inv nb unseen base S [] m' := by
  intro fuel
  induction fuel with
  | zero =>
    intro q m m' hi h
    cases q with
    | nil => simp only [bfs, Option.some.injEq] at h; exact h ▸ hi
    | cons e q => simp [bfs] at h
  | succ fuel ih =>
    intro q m m' hi h
    cases q with
    | nil => simp only [bfs, Option.some.injEq] at h; exact h ▸ hi
    | cons e q =>
      obtain ⟨v, d⟩ := e
      simp only [bfs] at h
      obtain ⟨b, hlev, hmark⟩ := hi.level
      have hvd := hlev (v, d) (by simp)
      simp only at hvd
      obtain ⟨hhead, htail⟩ := List.pairwise_cons.1 hi.sorted
      have hrest : ∀ e ∈ q, d ≤ e.2 ∧ e.2 ≤ d + 1 := fun e he => by
        have h1 := hhead e he
        have h2 := hlev e (by simp [he])
        simp only at h1
        omega
      have hmd : ∀ u, m u ≠ unseen → m u ≤ d := fun u hu => by have := hmark u hu; omega
      by_cases hv : m v = unseen
      · rw [if_pos hv] at h
        refine ih _ _ _ ?_ h
        obtain ⟨s, k, hs, hw, hk⟩ := hi.queue (v, d) (by simp)
        simp only at hw hk
        have hdn : d ≠ unseen := by omega
        refine ⟨?_, ?_, ?_, ?_, ?_, ?_⟩
        · intro e he
          rcases List.mem_append.1 he with he | he
          · exact hi.queue e (by simp [he])
          · obtain ⟨n, hn, rfl⟩ := List.mem_map.1 he
            exact ⟨s, k + 1, hs, .snoc hw hn, by simp only; omega⟩
        · intro u hu
          by_cases huv : u = v
          · subst huv
            exact ⟨s, k, hs, hw, by simp only [setAt, if_true]; exact hk⟩
          · simp only [setAt, if_neg huv] at hu ⊢
            exact hi.marked u hu
        · refine ⟨d, ?_, ?_⟩
          · intro e he
            rcases List.mem_append.1 he with he | he
            · exact hrest e he
            · obtain ⟨n, hn, rfl⟩ := List.mem_map.1 he
              simp only; omega
          · intro u hu
            by_cases huv : u = v
            · subst huv; simp [setAt]
            · simp only [setAt, if_neg huv] at hu ⊢
              exact hmd u hu
        · rw [List.pairwise_append]
          refine ⟨htail, ?_, ?_⟩
          · rw [List.pairwise_map]
            exact List.Pairwise.imp (fun _ => by simp) (List.pairwise_of_forall (R := fun _ _ => True) fun _ _ => trivial)
          · intro a ha c hc
            obtain ⟨n, hn, rfl⟩ := List.mem_map.1 hc
            have := hrest a ha
            simp only; omega
        · intro u hu w hw'
          by_cases huv : u = v
          · subst huv
            simp only [setAt, if_true]
            exact Or.inr (List.mem_append.2 (Or.inr (List.mem_map.2 ⟨w, hw', rfl⟩)))
          · simp only [setAt, if_neg huv] at hu ⊢
            rcases hi.closed u hu w hw' with ⟨h1, h2⟩ | h1
            · left
              by_cases hwv : w = v
              · subst hwv; exact absurd hv h1
              · rw [if_neg hwv]; exact ⟨h1, h2⟩
            · rcases List.mem_cons.1 h1 with h1 | h1
              · left
                obtain ⟨rfl, h2⟩ := Prod.mk.inj h1
                rw [if_pos rfl]
                exact ⟨hdn, by omega⟩
              · exact Or.inr (List.mem_append.2 (Or.inl h1))
        · intro s' hs'
          rcases hi.starts s' hs' with ⟨h1, h2⟩ | h1
          · left
            by_cases hwv : s' = v
            · subst hwv; exact absurd hv h1
            · simp only [setAt, if_neg hwv]; exact ⟨h1, h2⟩
          · rcases List.mem_cons.1 h1 with h1 | h1
            · left
              obtain ⟨rfl, h2⟩ := Prod.mk.inj h1
              simp only [setAt, if_true]
              exact ⟨hdn, by omega⟩
            · exact Or.inr (List.mem_append.2 (Or.inl h1))
      · rw [if_neg hv] at h
        refine ih _ _ _ ?_ h
        refine ⟨fun e he => hi.queue e (by simp [he]), hi.marked, ⟨d, hrest, hmd⟩, htail, ?_, ?_⟩
        · intro u hu w hw'
          rcases hi.closed u hu w hw' with h1 | h1
          · exact Or.inl h1
          · rcases List.mem_cons.1 h1 with h1 | h1
            · left
              obtain ⟨rfl, h2⟩ := Prod.mk.inj h1
              exact ⟨hv, h2 ▸ hmd _ hv⟩
            · exact Or.inr h1
        · intro s hs
          rcases hi.starts s hs with h1 | h1
          · exact Or.inl h1
          · rcases List.mem_cons.1 h1 with h1 | h1
            · left
              obtain ⟨rfl, h2⟩ := Prod.mk.inj h1
              exact ⟨hv, h2 ▸ hmd _ hv⟩
            · exact Or.inr h1

/-- The number of leafs of `V` that were not visited. -/
def unseenCount (V : List Nat) (unseen : Int) (m : Nat → Int) : Nat := (V.filter fun v => m v = unseen).length

theorem setAt_self {α : Type} (f : Nat → α) (i : Nat) (a : α) : setAt f i a i = a := by simp [setAt]

theorem setAt_ne {α : Type} (f : Nat → α) {i j : Nat} (a : α) (h : j ≠ i) : setAt f i a j = f j := by simp [setAt, h]

theorem unseenCount_cons {V : List Nat} {unseen : Int} {m : Nat → Int} {a : Nat} :
    unseenCount (a :: V) unseen m = (if m a = unseen then 1 else 0) + unseenCount V unseen m := by
  unfold unseenCount
  by_cases h : m a = unseen
  · rw [if_pos h, List.filter_cons_of_pos (by simpa using h), List.length_cons]; omega
  · rw [if_neg h, List.filter_cons_of_neg (by simpa using h)]; omega

theorem unseenCount_le {V : List Nat} {unseen d : Int} {m : Nat → Int} {v : Nat} (hd : d ≠ unseen) :
    unseenCount V unseen (setAt m v d) ≤ unseenCount V unseen m := by
  induction V with
  | nil => exact Nat.le_refl _
  | cons b V ih =>
    rw [unseenCount_cons, unseenCount_cons]
    by_cases hb : b = v
    · subst hb
      rw [setAt_self, if_neg hd]; omega
    · rw [setAt_ne _ _ hb]; omega

theorem unseenCount_set {V : List Nat} {unseen d : Int} {m : Nat → Int} {v : Nat} (hv : v ∈ V) (hu : m v = unseen)
    (hd : d ≠ unseen) : unseenCount V unseen (setAt m v d) < unseenCount V unseen m := by
  induction V with
  | nil => simp at hv
  | cons a V ih =>
    have hle := unseenCount_le (V := V) (m := m) (v := v) hd
    rw [unseenCount_cons, unseenCount_cons]
    by_cases ha : a = v
    · subst ha
      rw [setAt_self, if_neg hd, if_pos hu]; omega
    · rw [setAt_ne _ _ ha]
      have := ih ((List.mem_cons.1 hv).resolve_left fun h => ha h.symm)
      omega

theorem bfs_ends {nb : Nat → List Nat} {unseen : Int} {V : List Nat} (hV : ∀ v ∈ V, ∀ w ∈ nb v, w ∈ V) :
    ∀ n m q, unseenCount V unseen m ≤ n → (∀ e ∈ q, e.1 ∈ V ∧ unseen < e.2) →
      ∃ m' N, ∀ fuel ≥ N, bfs nb unseen fuel q m = some m' := by
  intro n
  induction n with
  | zero =>
    intro m q
    induction q with
    | nil => intro _ _; exact ⟨m, 0, fun fuel _ => by cases fuel <;> rfl⟩
    | cons e q ih =>
      intro hc hq
      obtain ⟨v, d⟩ := e
      have hv := hq (v, d) (by simp)
      have hmv : m v ≠ unseen := by
        intro h
        have := unseenCount_set (d := d) hv.1 h (by have := hv.2; simp only at this; omega)
        omega
      obtain ⟨m', N, h⟩ := ih hc fun e he => hq e (by simp [he])
      refine ⟨m', N + 1, fun fuel hf => ?_⟩
      obtain ⟨k, rfl⟩ : ∃ k, fuel = k + 1 := ⟨fuel - 1, by omega⟩
      simp only [bfs]
      rw [if_neg hmv]
      exact h k (by omega)
  | succ n ihn =>
    intro m q
    induction q with
    | nil => intro _ _; exact ⟨m, 0, fun fuel _ => by cases fuel <;> rfl⟩
    | cons e q ih =>
      intro hc hq
      obtain ⟨v, d⟩ := e
      have hv := hq (v, d) (by simp)
      by_cases hmv : m v = unseen
      · have hlt := unseenCount_set (d := d) (v := v) hv.1 hmv (by have := hv.2; simp only at this; omega)
        obtain ⟨m', N, h⟩ := ihn (setAt m v d) (q ++ (nb v).map fun w => (w, d + 1)) (by omega) (by
          intro e he
          rcases List.mem_append.1 he with he | he
          · exact hq e (by simp [he])
          · obtain ⟨w, hw, rfl⟩ := List.mem_map.1 he
            exact ⟨hV v hv.1 w hw, by have := hv.2; simp only at this ⊢; omega⟩)
        refine ⟨m', N + 1, fun fuel hf => ?_⟩
        obtain ⟨k, rfl⟩ : ∃ k, fuel = k + 1 := ⟨fuel - 1, by omega⟩
        simp only [bfs]
        rw [if_pos hmv]
        exact h k (by omega)
      · obtain ⟨m', N, h⟩ := ih hc fun e he => hq e (by simp [he])
        refine ⟨m', N + 1, fun fuel hf => ?_⟩
        obtain ⟨k, rfl⟩ : ∃ k, fuel = k + 1 := ⟨fuel - 1, by omega⟩
        simp only [bfs]
        rw [if_neg hmv]
        exact h k (by omega)

/-- What the marks are after a search. -/
structure Marks (nb : Nat → List Nat) (unseen base : Int) (S : List Nat) (m : Nat → Int) : Prop where
  marked : ∀ v, m v ≠ unseen → ∃ s k, s ∈ S ∧ Walk nb s k v ∧ m v = base + k
  short : ∀ s ∈ S, ∀ k v, Walk nb s k v → m v ≠ unseen ∧ m v ≤ base + k

theorem marks_of_inv {nb : Nat → List Nat} {unseen base : Int} {S : List Nat} {m : Nat → Int}
    (hi : Inv nb unseen base S [] m) : Marks nb unseen base S m := by
  refine ⟨hi.marked, ?_⟩
  intro s hs k v hw
  induction hw with
  | zero =>
    rcases hi.starts s hs with h | h
    · exact ⟨h.1, by have := h.2; omega⟩
    · simp at h
  | snoc hw hn ih =>
    rcases hi.closed _ ih.1 _ hn with h | h
    · exact ⟨h.1, by have := h.2; have := ih.2; omega⟩
    · simp at h

theorem bfs_marks {nb : Nat → List Nat} {unseen base : Int} (hb : unseen < base) (S : List Nat) {V : List Nat}
    (hV : ∀ v ∈ V, ∀ w ∈ nb v, w ∈ V) (hS : ∀ s ∈ S, s ∈ V) :
    ∃ m N, (∀ fuel ≥ N, bfs nb unseen fuel (S.map fun s => (s, base)) (fun _ => unseen) = some m) ∧
      Marks nb unseen base S m := by
  obtain ⟨m, N, h⟩ := bfs_ends hV (unseenCount V unseen fun _ => unseen) (fun _ => unseen)
    (S.map fun s => (s, base)) (Nat.le_refl _) (by
      intro e he
      obtain ⟨s, hs, rfl⟩ := List.mem_map.1 he
      exact ⟨hS s hs, hb⟩)
  refine ⟨m, N, h, marks_of_inv (bfs_inv hb N _ _ m ?_ (h N (Nat.le_refl _)))⟩
  refine ⟨?_, by simp, ⟨base, ?_, by simp⟩, ?_, by simp, ?_⟩
  · intro e he
    obtain ⟨s, hs, rfl⟩ := List.mem_map.1 he
    exact ⟨s, 0, hs, .zero, by simp⟩
  · intro e he
    obtain ⟨s, hs, rfl⟩ := List.mem_map.1 he
    simp only; omega
  · rw [List.pairwise_map]
    exact List.Pairwise.imp (fun _ => by simp) (List.pairwise_of_forall (R := fun _ _ => True) fun _ _ => trivial)
  · intro s hs
    exact Or.inr (List.mem_map.2 ⟨s, hs, rfl⟩)

/-! ## Portals and chains -/

theorem mem_neighbours {pass : Portal → Bool} {ps : List Portal} {v k w : Nat} :
    (k, w) ∈ neighbours pass ps v ↔ ∃ p, ps[k]? = some p ∧ pass p = true ∧ Between p v w := by
  simp only [neighbours, portalsOf, List.mem_map, List.mem_filter, List.mem_reverse, Prod.exists, Prod.mk.injEq]
  constructor
  · rintro ⟨k', p, ⟨⟨p', i, ⟨hm, hv⟩, rfl, rfl⟩, hp⟩, rfl, rfl⟩
    rw [List.mem_zipIdx_iff_getElem?] at hm
    refine ⟨p', hm, hp, ?_⟩
    unfold across Between
    simp only [Bool.or_eq_true, decide_eq_true_eq] at hv
    by_cases h0 : p'.n0 = v
    · rw [if_pos h0]; exact Or.inl ⟨h0, rfl⟩
    · rw [if_neg h0]; exact Or.inr ⟨hv.resolve_left h0, rfl⟩
  · rintro ⟨p, hk, hp, hb⟩
    refine ⟨k, p, ⟨⟨p, k, ⟨by rw [List.mem_zipIdx_iff_getElem?]; exact hk, ?_⟩, rfl, rfl⟩, hp⟩, rfl, ?_⟩
    · rcases hb with ⟨h, -⟩ | ⟨h, -⟩ <;> simp [h]
    · unfold across
      rcases hb with ⟨h, h'⟩ | ⟨h, h'⟩
      · rw [if_pos h, h']
      · by_cases h0 : p.n0 = v
        · rw [if_pos h0, h, ← h', h0]
        · rw [if_neg h0, h']

theorem mem_nb {pass : Portal → Bool} {ps : List Portal} {v w : Nat} :
    w ∈ nb pass ps v ↔ ∃ (k : Nat) (p : Portal), ps[k]? = some p ∧ pass p = true ∧ Between p v w := by
  simp only [nb, List.mem_map, Prod.exists]
  constructor
  · rintro ⟨k, w', h, rfl⟩
    exact ⟨k, mem_neighbours.1 h⟩
  · rintro ⟨k, h⟩
    exact ⟨k, w, mem_neighbours.2 h, rfl⟩

theorem between_symm {p : Portal} {u v : Nat} (h : Between p u v) : Between p v u := by
  rcases h with ⟨a, b⟩ | ⟨a, b⟩
  · exact Or.inr ⟨b, a⟩
  · exact Or.inl ⟨b, a⟩

theorem nb_symm {pass : Portal → Bool} {ps : List Portal} {v w : Nat} (h : w ∈ nb pass ps v) : v ∈ nb pass ps w := by
  obtain ⟨k, p, h1, h2, h3⟩ := mem_nb.1 h
  exact mem_nb.2 ⟨k, p, h1, h2, between_symm h3⟩

variable {ok : Portal → Prop} {ps : List Portal}

theorem chain_snoc {u v w k : Nat} {p : Portal} {ks vs : List Nat} (h : Chain ok ps u ks vs v) (hk : ps[k]? = some p)
    (hp : ok p) (hb : Between p v w) : Chain ok ps u (ks ++ [k]) (vs ++ [w]) w := by
  induction h with
  | nil v => exact .cons v k w w p [] [w] hk hp hb (.nil w)
  | cons u k' w' v p' ks vs h1 h2 h3 _ ih => exact .cons u k' w' w p' _ _ h1 h2 h3 (ih hb)

theorem chain_reverse {u v : Nat} {ks vs : List Nat} (h : Chain ok ps u ks vs v) :
    Chain ok ps v ks.reverse vs.reverse u := by
  induction h with
  | nil v => exact .nil v
  | cons u k w v p ks vs h1 h2 h3 _ ih =>
    rw [List.reverse_cons, List.reverse_cons]
    exact chain_snoc ih h1 h2 (between_symm h3)

theorem chain_append {u v w : Nat} {ks vs ks' vs' : List Nat} (h : Chain ok ps u ks vs v)
    (h' : Chain ok ps v ks' vs' w) : ∃ vs'', Chain ok ps u (ks ++ ks') vs'' w := by
  induction h with
  | nil v => exact ⟨vs', h'⟩
  | cons u k w' v p ks vs h1 h2 h3 _ ih =>
    obtain ⟨vs'', h''⟩ := ih h'
    exact ⟨u :: vs'', .cons u k w' w p _ _ h1 h2 h3 h''⟩

theorem reaches_symm {u v : Nat} (h : Reaches ok ps u v) : Reaches ok ps v u := by
  obtain ⟨ks, vs, h⟩ := h
  exact ⟨_, _, chain_reverse h⟩

theorem reaches_trans {u v w : Nat} (h : Reaches ok ps u v) (h' : Reaches ok ps v w) : Reaches ok ps u w := by
  obtain ⟨ks, vs, h⟩ := h
  obtain ⟨ks', vs', h'⟩ := h'
  obtain ⟨vs'', h''⟩ := chain_append h h'
  exact ⟨_, _, h''⟩

theorem walk_chain {pass : Portal → Bool} (hpass : ∀ p, pass p = true ↔ ok p) {s k v : Nat} (h : Walk (nb pass ps) s k v) :
    ∃ ks vs, Chain ok ps s ks vs v ∧ ks.length = k := by
  induction h with
  | zero => exact ⟨[], [s], .nil s, rfl⟩
  | snoc _ hn ih =>
    obtain ⟨ks, vs, hc, hl⟩ := ih
    obtain ⟨k, p, h1, h2, h3⟩ := mem_nb.1 hn
    exact ⟨_, _, chain_snoc hc h1 ((hpass p).1 h2) h3, by simp [hl]⟩

theorem walk_cons {nb : Nat → List Nat} {s w k v : Nat} (hn : w ∈ nb s) (h : Walk nb w k v) : Walk nb s (k + 1) v := by
  induction h with
  | zero => exact .snoc .zero hn
  | snoc _ hn' ih => exact .snoc ih hn'

theorem chain_walk {pass : Portal → Bool} (hpass : ∀ p, pass p = true ↔ ok p) {s v : Nat} {ks vs : List Nat}
    (h : Chain ok ps s ks vs v) : Walk (nb pass ps) s ks.length v := by
  induction h with
  | nil v => exact .zero
  | cons u k w v p ks vs h1 h2 h3 _ ih => exact walk_cons (mem_nb.2 ⟨k, p, h1, (hpass p).2 h2, h3⟩) ih

/-- The marks in terms of chains. -/
theorem marks_nearest {pass : Portal → Bool} (hpass : ∀ p, pass p = true ↔ ok p) {unseen base : Int} {S : List Nat}
    {m : Nat → Int} (hm : Marks (nb pass ps) unseen base S m) (v : Nat) :
    (m v = unseen ∧ ∀ s ∈ S, ¬ Reaches ok ps s v) ∨
      (m v ≠ unseen ∧ ∃ d : Nat, m v = base + d ∧ Nearest ok ps (· ∈ S) v d) := by
  by_cases h : m v = unseen
  · left
    refine ⟨h, ?_⟩
    rintro s hs ⟨ks, vs, hc⟩
    exact (hm.short s hs _ v (chain_walk hpass hc)).1 h
  · right
    obtain ⟨s, k, hs, hw, hk⟩ := hm.marked v h
    obtain ⟨ks, vs, hc, hl⟩ := walk_chain hpass hw
    refine ⟨h, k, hk, ⟨s, ks, vs, hs, hc, hl⟩, ?_⟩
    intro s' ks' vs' hs' hc'
    have := (hm.short s' hs' _ v (chain_walk hpass hc')).2
    omega

/-! ## The walk back -/

theorem bestStep_ok {m : Nat → Int} {base : Int} {node : Nat} : ∀ {l : List (Nat × Nat)} {best : Option (Nat × Nat)}
    {bm : Int}, (∀ x ∈ l, x.2 ≠ node ∧ base ≤ m x.2) → (∀ x, best = some x → m x.2 = bm) →
    ∃ r, bestStep m base node l best bm = .ok r ∧
      (r = none → best = none ∧ ∀ x ∈ l, bm ≤ m x.2) ∧
      (∀ x, r = some x → (x ∈ l ∨ best = some x) ∧ m x.2 ≤ bm ∧ (∀ y ∈ l, m x.2 ≤ m y.2) ∧ (best = none → m x.2 < bm)) := by
  intro l
  induction l with
  | nil =>
    intro best bm _ hb
    exact ⟨best, rfl, fun h => ⟨h, by simp⟩, fun x hx => ⟨Or.inr hx, Int.le_of_eq (hb x hx), by simp,
      fun h => by rw [h] at hx; cases hx⟩⟩
  | cons e l ih =>
    obtain ⟨k, w⟩ := e
    intro best bm hl hb
    have hkw := hl (k, w) (by simp)
    simp only at hkw
    simp only [bestStep]
    rw [if_neg hkw.1, if_neg (by omega)]
    by_cases hlt : m w < bm
    · rw [if_pos hlt]
      obtain ⟨r, h1, h2, h3⟩ := ih (best := some (k, w)) (bm := m w) (fun x hx => hl x (by simp [hx]))
        (by intro x hx; cases hx; rfl)
      refine ⟨r, h1, fun h => by simpa using (h2 h).1, fun x hx => ?_⟩
      obtain ⟨g1, g2, g3, g4⟩ := h3 x hx
      refine ⟨?_, by omega, ?_, fun _ => by omega⟩
      · rcases g1 with g1 | g1
        · exact Or.inl (by simp [g1])
        · cases g1; exact Or.inl (by simp)
      · intro y hy
        rcases List.mem_cons.1 hy with rfl | hy
        · exact g2
        · exact g3 y hy
    · rw [if_neg hlt]
      obtain ⟨r, h1, h2, h3⟩ := ih (best := best) (bm := bm) (fun x hx => hl x (by simp [hx])) hb
      refine ⟨r, h1, fun h => ⟨(h2 h).1, ?_⟩, fun x hx => ?_⟩
      · intro y hy
        rcases List.mem_cons.1 hy with rfl | hy
        · simp only; omega
        · exact (h2 h).2 y hy
      · obtain ⟨g1, g2, g3, g4⟩ := h3 x hx
        refine ⟨?_, g2, ?_, g4⟩
        · rcases g1 with g1 | g1
          · exact Or.inl (by simp [g1])
          · exact Or.inr g1
        · intro y hy
          rcases List.mem_cons.1 hy with rfl | hy
          · simp only; omega
          · exact g3 y hy

theorem marks_step {nb : Nat → List Nat} {unseen base : Int} {S : List Nat} {m : Nat → Int} (hm : Marks nb unseen base S m)
    {u w : Nat} (hu : m u ≠ unseen) (hw : w ∈ nb u) : m w ≠ unseen ∧ base ≤ m w ∧ m w ≤ m u + 1 := by
  obtain ⟨s, k, hs, hwalk, hk⟩ := hm.marked u hu
  obtain ⟨h1, h2⟩ := hm.short s hs _ w (.snoc hwalk hw)
  obtain ⟨_, k', _, _, hk'⟩ := hm.marked w h1
  exact ⟨h1, by omega, by omega⟩

/-- From a leaf with mark `base + k` the walk crosses exactly `k` passable portals, visits no leaf twice, and ends in a
leaf with mark `base`, that is, in a leaf where the search started. -/
theorem followLine_ok {pass : Portal → Bool} (hpass : ∀ p, pass p = true ↔ ok p) (hne : ∀ p ∈ ps, p.n0 ≠ p.n1)
    {unseen base : Int} {S : List Nat} {m : Nat → Int} (hm : Marks (nb pass ps) unseen base S m) (hb : unseen < base) :
    ∀ (k node : Nat), m node = base + k → ∃ line vs last, (∀ fuel ≥ k, followLine pass ps m base fuel node =
      some (.ok (line, last))) ∧ Chain ok ps node line vs last ∧ line.length = k ∧ m last = base ∧ last ∈ S ∧
      vs.Nodup ∧ ∀ x ∈ vs, m x ≤ base + k := by
  intro k
  induction k with
  | zero =>
    intro node hk
    have hk' : m node = base := by omega
    refine ⟨[], [node], node, ?_, .nil node, rfl, hk', ?_, by simp, by simp [hk']⟩
    · intro fuel _
      unfold followLine
      rw [if_pos hk']
    · obtain ⟨s, k, hs, hw, hkk⟩ := hm.marked node (by omega)
      have : k = 0 := by omega
      subst this
      cases hw
      exact hs
  | succ k ih =>
    intro node hk
    have hnu : m node ≠ unseen := by omega
    have hnode : m node ≠ base := by omega
    -- the predecessor
    obtain ⟨s, k', hs, hw, hk'⟩ := hm.marked node hnu
    have hkk : k' = k + 1 := by omega
    subst hkk
    cases hw with
    | snoc hw hn =>
      rename_i u
      have hu := hm.short s hs _ u hw
      have hun := marks_step hm hu.1 hn
      have hmem : u ∈ nb pass ps node := nb_symm hn
      have hall : ∀ x ∈ neighbours pass ps node, x.2 ≠ node ∧ base ≤ m x.2 ∧ m node ≤ m x.2 + 1 := by
        rintro ⟨j, w⟩ hx
        obtain ⟨p, h1, h2, h3⟩ := mem_neighbours.1 hx
        have hw' : w ∈ nb pass ps node := mem_nb.2 ⟨j, p, h1, h2, h3⟩
        have hst := marks_step hm hnu hw'
        refine ⟨?_, hst.2.1, (marks_step hm hst.1 (nb_symm hw')).2.2⟩
        rintro rfl
        have := hne p (List.mem_of_getElem? h1)
        rcases h3 with ⟨a, b⟩ | ⟨a, b⟩
        · exact this (a.trans b.symm)
        · exact this (b.trans a.symm)
      obtain ⟨r, h1, h2, h3⟩ := bestStep_ok (m := m) (base := base) (node := node) (best := none) (bm := m node)
        (fun x hx => ⟨(hall x hx).1, (hall x hx).2.1⟩) (by simp)
      obtain ⟨⟨j, u'⟩, hju, hju'⟩ := List.mem_map.1 hmem
      simp only at hju'
      subst hju'
      cases r with
      | none =>
        have := (h2 rfl).2 _ hju
        simp only at this
        omega
      | some x =>
        obtain ⟨j', w⟩ := x
        obtain ⟨g1, g2, g3, g4⟩ := h3 _ rfl
        have g1 : (j', w) ∈ neighbours pass ps node := by simpa using g1
        have hg := g3 _ hju
        have hg' := hall _ g1
        simp only at hg hg'
        obtain ⟨p, hp1, hp2, hp3⟩ := mem_neighbours.1 g1
        obtain ⟨line, vs, last, i1, i2, i3, i4, i5, i6, i7⟩ := ih w (by omega)
        refine ⟨j' :: line, node :: vs, last, ?_, .cons node j' w last p line vs hp1 ((hpass p).1 hp2) hp3 i2, by simp [i3],
          i4, i5, ?_, ?_⟩
        · intro fuel hf
          obtain ⟨f, rfl⟩ : ∃ f, fuel = f + 1 := ⟨fuel - 1, by omega⟩
          unfold followLine
          rw [if_neg hnode]
          simp only [h1]
          rw [i1 f (by omega)]
        · rw [List.nodup_cons]
          refine ⟨fun hmem => ?_, i6⟩
          have := i7 _ hmem
          omega
        · intro x hx
          rcases List.mem_cons.1 hx with rfl | hx
          · omega
          · have := i7 x hx; omega

end Verif.Flood
