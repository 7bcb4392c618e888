import Verif.Vis.Flow
import Verif.Vis.GraphLemmas

namespace Verif.Vis

variable {Leaf Portal W C : Type} [DecidableEq Leaf] [DecidableEq Portal] {G : Graph Leaf Portal}

omit [DecidableEq Portal] in
theorem mark_self (b : Leaf → Bool) (L : Leaf) : mark b L L = true := by simp [mark]

omit [DecidableEq Portal] in
theorem mark_mono (b : Leaf → Bool) (L M : Leaf) (h : b M = true) : mark b L M = true := by
  simp [mark, h]

omit [DecidableEq Portal] in
theorem mark_iff (b : Leaf → Bool) (L M : Leaf) : mark b L M = true ↔ M = L ∨ b M = true := by
  unfold mark; split <;> simp_all

/-! ### flood -/

omit [DecidableEq Portal] in
theorem countP_mark {l : List Leaf} (hn : l.Nodup) {b : Leaf → Bool} {L : Leaf} (hL : L ∈ l)
    (hb : b L = false) : l.countP (mark b L) = l.countP b + 1 := by
  induction l with
  | nil => simp at hL
  | cons a l ih =>
    have hn' := List.nodup_cons.1 hn
    rcases List.mem_cons.1 hL with rfl | hL
    · have : l.countP (mark b L) = l.countP b := by
        apply List.countP_congr
        intro x hx
        have : x ≠ L := fun e => hn'.1 (e ▸ hx)
        simp [mark, this]
      rw [List.countP_cons, List.countP_cons, this]
      simp [mark_self, hb]
    · have : a ≠ L := fun e => hn'.1 (e ▸ hL)
      rw [List.countP_cons, List.countP_cons, ih hn'.2 hL]
      simp [mark, this]; omega

omit [DecidableEq Portal] in
/-- Everything about the depth first flood: it marks its start, whatever it newly marks is closed
under the edges, and it counts the bits it sets. -/
theorem flood_closed (see : Portal → Bool) :
    (∀ L (s : (Leaf → Bool) × Nat), (flood G see L s).1.1 L = true ∧
      (∀ p, s.1 (G.owner p) = false → (flood G see L s).1.1 (G.owner p) = true → see p = true →
        (flood G see L s).1.1 (G.dest p) = true) ∧
      (s.2 = popcount G s.1 → (flood G see L s).1.2 = popcount G (flood G see L s).1.1)) ∧
    (∀ ps (s : (Leaf → Bool) × Nat), (∀ p ∈ ps, see p = true → (floodLoop G see ps s).1.1 (G.dest p) = true) ∧
      (∀ p, s.1 (G.owner p) = false → (floodLoop G see ps s).1.1 (G.owner p) = true → see p = true →
        (floodLoop G see ps s).1.1 (G.dest p) = true) ∧
      (s.2 = popcount G s.1 → (floodLoop G see ps s).1.2 = popcount G (floodLoop G see ps s).1.1)) := by
  apply flood.mutual_induct G see
    (fun L s => (flood G see L s).1.1 L = true ∧
      (∀ p, s.1 (G.owner p) = false → (flood G see L s).1.1 (G.owner p) = true → see p = true →
        (flood G see L s).1.1 (G.dest p) = true) ∧
      (s.2 = popcount G s.1 → (flood G see L s).1.2 = popcount G (flood G see L s).1.1))
    (fun ps s => (∀ p ∈ ps, see p = true → (floodLoop G see ps s).1.1 (G.dest p) = true) ∧
      (∀ p, s.1 (G.owner p) = false → (floodLoop G see ps s).1.1 (G.owner p) = true → see p = true →
        (floodLoop G see ps s).1.1 (G.dest p) = true) ∧
      (s.2 = popcount G s.1 → (floodLoop G see ps s).1.2 = popcount G (floodLoop G see ps s).1.1))
  · intro L s h
    rw [flood]
    simp only [h, ↓reduceDIte]
    exact ⟨trivial, fun p h1 h2 => (by rw [h1] at h2; cases h2), fun h => h⟩
  · intro L s h _ ih
    rw [flood]
    simp only [h]
    have hmono := (floodLoop G see (G.out L) (mark s.1 L, s.2 + 1)).2
    refine ⟨hmono L (mark_self _ _), ?_, ?_⟩
    · intro p h1 h2 h3
      by_cases hL : G.owner p = L
      · exact ih.1 p ((G.mem_out L p).2 hL) h3
      · exact ih.2.1 p (by simp [mark, hL, h1]) h2 h3
    · intro hc
      apply ih.2.2
      show s.2 + 1 = popcount G (mark s.1 L)
      unfold popcount
      rw [countP_mark G.nodup_leafs (G.mem_leafs L) (by simpa using h), hc]; rfl
  · intro s
    rw [floodLoop]
    exact ⟨by simp, fun p h1 h2 => (by dsimp only at h2; rw [h1] at h2; cases h2), fun h => h⟩
  · intro s p ps hp r1 _ ih1 ih2 _
    rw [floodLoop]
    simp only [hp, ↓reduceIte]
    have hmono := (floodLoop G see ps (flood G see (G.dest p) s).1).2
    refine ⟨?_, ?_, ?_⟩
    · intro q hq hs
      rcases List.mem_cons.1 hq with rfl | hq
      · exact hmono _ ih1.1
      · exact ih2.1 q hq hs
    · intro q h1 h2 h3
      cases h : (flood G see (G.dest p) s).1.1 (G.owner q)
      · exact ih2.2.1 q h h2 h3
      · exact hmono _ (ih1.2.1 q h1 h h3)
    · intro hc; exact ih2.2.2 (ih1.2.2 hc)
  · intro s p ps hp ih
    rw [floodLoop]
    simp only [hp, Bool.false_eq_true, ↓reduceIte]
    refine ⟨?_, ih.2⟩
    intro q hq hs
    rcases List.mem_cons.1 hq with rfl | hq
    · exact absurd hs hp
    · exact ih.1 q hq hs

omit [DecidableEq Portal] in
/-- Nothing is marked that a closed set containing the start and the old bits does not contain. -/
theorem flood_least (see : Portal → Bool) (R : Leaf → Prop)
    (hR : ∀ p, R (G.owner p) → see p = true → R (G.dest p)) :
    (∀ L (s : (Leaf → Bool) × Nat), R L → (∀ M, s.1 M = true → R M) →
      ∀ M, (flood G see L s).1.1 M = true → R M) ∧
    (∀ ps (s : (Leaf → Bool) × Nat), (∀ p ∈ ps, R (G.owner p)) → (∀ M, s.1 M = true → R M) →
      ∀ M, (floodLoop G see ps s).1.1 M = true → R M) := by
  apply flood.mutual_induct G see
    (fun L s => R L → (∀ M, s.1 M = true → R M) → ∀ M, (flood G see L s).1.1 M = true → R M)
    (fun ps s => (∀ p ∈ ps, R (G.owner p)) → (∀ M, s.1 M = true → R M) →
      ∀ M, (floodLoop G see ps s).1.1 M = true → R M)
  · intro L s h _ hs M
    rw [flood]; simp only [h, ↓reduceDIte]; exact hs M
  · intro L s h _ ih hL hs M
    rw [flood]; simp only [h]
    apply ih
    · intro p hp; rw [(G.mem_out L p).1 hp]; exact hL
    · intro M hM
      rcases (mark_iff _ _ _).1 hM with rfl | hM
      · exact hL
      · exact hs M hM
  · intro s _ hs M; rw [floodLoop]; exact hs M
  · intro s p ps hp r1 _ ih1 ih2 _ hps hs M
    rw [floodLoop]; simp only [hp, ↓reduceIte]
    apply ih2 (fun q hq => hps q (List.mem_cons_of_mem _ hq))
    exact ih1 (hR p (hps p List.mem_cons_self) hp) hs
  · intro s p ps hp ih hps hs M
    rw [floodLoop]; simp only [hp, Bool.false_eq_true, ↓reduceIte]
    exact ih (fun q hq => hps q (List.mem_cons_of_mem _ hq)) hs M

/-! ### flow -/

/-- Some stabbed walk that starts with `c` ends in `L`. -/
def Ext (S : Sight G) (c : List Portal) (L : Leaf) : Prop :=
  ∃ m q, IsChain G (c ++ m) ∧ S.Stab (c ++ m) ∧ (c ++ m).getLast? = some q ∧ G.dest q = L

/-- The same with at least one portal more. -/
def PExt (S : Sight G) (c : List Portal) (L : Leaf) : Prop :=
  ∃ m q, IsChain G (c ++ m ++ [q]) ∧ S.Stab (c ++ m ++ [q]) ∧ G.dest q = L

omit [DecidableEq Leaf] [DecidableEq Portal] in
theorem PExt.ofAppend {S : Sight G} {c d : List Portal} {L} (h : PExt S (c ++ d) L) : PExt S c L := by
  obtain ⟨m, q, h1, h2, h3⟩ := h
  exact ⟨d ++ m, q, by simpa using h1, by simpa using h2, h3⟩

omit [DecidableEq Leaf] [DecidableEq Portal] in
theorem Ext.toPExt {S : Sight G} {c : List Portal} {p : Portal} {L} (h : Ext S (c ++ [p]) L) :
    PExt S c L := by
  obtain ⟨m, q, h1, h2, h3, h4⟩ := h
  obtain ⟨d, e⟩ : ∃ d, c ++ [p] ++ m = c ++ d ++ [q] := by
    have : ([p] ++ m).getLast? = some q := by
      rw [List.append_assoc, List.getLast?_append] at h3
      cases h : ([p] ++ m).getLast? with
      | none => simp at h
      | some x => rw [h] at h3; exact h3
    obtain ⟨d, hd⟩ := List.getLast?_eq_some_iff.1 this
    exact ⟨d, by rw [List.append_assoc, hd, List.append_assoc]⟩
  rw [e] at h1 h2
  exact ⟨d, q, h1, h2, h4⟩

omit [DecidableEq Leaf] [DecidableEq Portal] in
theorem Ext.cases {S : Sight G} {c : List Portal} {p : Portal} {L} (h : Ext S (c ++ [p]) L) :
    L = G.dest p ∨ ∃ q, G.owner q = G.dest p ∧ Ext S (c ++ [p] ++ [q]) L := by
  obtain ⟨m, q, h1, h2, h3, h4⟩ := h
  cases m with
  | nil =>
    left
    simp at h3
    rw [h3, h4]
  | cons r m =>
    right
    refine ⟨r, ?_, m, q, by simpa using h1, by simpa using h2, by simpa using h3, h4⟩
    have := (isChain_append.1 h1).2.2
    exact this p (by simp) r (by simp)

omit [DecidableEq Leaf] [DecidableEq Portal] in
theorem Ext.stab {S : Sight G} {c : List Portal} {L} (h : Ext S c L) : IsChain G c ∧ S.Stab c := by
  obtain ⟨m, q, h1, h2, _⟩ := h
  exact ⟨(isChain_append.1 h1).1, S.prefix_closed _ _ h2⟩

omit [DecidableEq Leaf] [DecidableEq Portal] in
theorem Ext.self {S : Sight G} {c : List Portal} {p : Portal} {L} (h : Ext S (c ++ [p]) L) :
    Ext S (c ++ [p]) (G.dest p) :=
  ⟨[], p, by simpa using h.stab.1, by simpa using h.stab.2, by simp, rfl⟩

omit [DecidableEq Leaf] [DecidableEq Portal] in
theorem Ext.sees {S : Sight G} {c : List Portal} {p : Portal} {L} (h : Ext S (c ++ [p]) L) :
    Sees G S p L := by
  obtain ⟨m, q, h1, h2, h3, h4⟩ := h
  rw [List.append_assoc] at h1 h2 h3
  refine ⟨m, (isChain_append.1 h1).2.1, S.suffix_closed _ _ h2, ?_⟩
  have : (p :: m).getLast? = some q := by
    rw [List.getLast?_append] at h3
    simp only [List.singleton_append] at h3
    cases h : (p :: m).getLast? with
    | none => simp at h
    | some x => rw [h] at h3; exact h3
  rw [List.getLast?_eq_some_getLast (by simp)] at this
  rw [Option.some.inj this, h4]

omit [DecidableEq Leaf] [DecidableEq Portal] in
theorem sees_ext {S : Sight G} {p : Portal} {L} (h : Sees G S p L) : Ext S [p] L := by
  obtain ⟨m, h1, h2, h3⟩ := h
  exact ⟨m, _, h1, h2, List.getLast?_eq_some_getLast (by simp), h3⟩

/-- Every frame's `mightsee` holds what can be seen beyond it along the stack, and its windings are
right. -/
def JAux (S : Sight G) (Ok : List Portal → W → Prop) :
    List Portal → List (Portal × Frame Leaf W) → Prop
  | _, [] => True
  | c, (p, f) :: rest => ((∀ L, PExt S (c ++ [p]) L → f.might L = true) ∧ Ok (c ++ [p]) f.win) ∧
      JAux S Ok (c ++ [p]) rest

omit [DecidableEq Leaf] [DecidableEq Portal] in
theorem jaux_append (S : Sight G) (Ok : List Portal → W → Prop) (c : List Portal)
    (a b : List (Portal × Frame Leaf W)) :
    JAux S Ok c (a ++ b) ↔ JAux S Ok c a ∧ JAux S Ok (c ++ a.map Prod.fst) b := by
  induction a generalizing c with
  | nil => simp [JAux]
  | cons x a ih =>
    obtain ⟨p, f⟩ := x
    simp only [List.cons_append, JAux, ih, List.map_cons, and_assoc]
    simp

/-- The winding tests never reject what is stabbed: there is a property `Ok` of the windings of a frame
and a property `Kept` of the planes kept such that the tests maintain both and, given both, let every
stabbed walk pass. -/
structure Sound (S : Sight G) (w : Tests Portal W C) (Ok : List Portal → W → Prop)
    (Kept : List Portal → W → C → Prop) : Prop where
  start : ∀ p, Ok [p] (w.start p)
  fresh : ∀ c d, Ok c d → Kept c d w.none
  step_kept : ∀ c d k q, Ok c d → Kept c d k → Kept c d (w.step c d k q).1
  step_ok : ∀ c d k q d', Ok c d → Kept c d k → (w.step c d k q).2 = some d' → Ok (c ++ [q]) d'
  step_stab : ∀ c d k q, Ok c d → Kept c d k → IsChain G (c ++ [q]) → S.Stab (c ++ [q]) →
    (w.step c d k q).2 ≠ none
  target_kept : ∀ c d k q, Ok c d → Kept c d k → Kept c d (w.target c d k q).1
  target_stab : ∀ c m q d k, 2 ≤ c.length → Ok c d → Kept c d k → IsChain G (c ++ m ++ [q]) →
    S.Stab (c ++ m ++ [q]) → (w.target c d k q).2 = true

/-- Neither the winding tests nor the bits read from other portals reject what is stabbed. -/
structure SoundOracle (S : Sight G) (o : Oracle Leaf Portal W C) (Ok : List Portal → W → Prop)
    (Kept : List Portal → W → C → Prop) : Prop where
  tests : Sound S o.w Ok Kept
  test : ∀ t p L, Sees G S p L → o.test t p L = true

theorem tcLoop_mono (tclip : C → Portal → C × Bool) (prev : Leaf → Bool) (prevpb : Portal → Bool)
    (ps : List Portal) (k : C) (loc : Leaf → Bool) (pb : Portal → Bool) :
    (∀ L, loc L = true → (tcLoop G tclip prev prevpb ps k loc pb).1 L = true) ∧
    (∀ q, q ∉ ps → (tcLoop G tclip prev prevpb ps k loc pb).2 q = pb q) ∧
    (∀ q, loc (G.dest q) = true → (tcLoop G tclip prev prevpb ps k loc pb).2 q = pb q) := by
  induction ps generalizing k loc pb with
  | nil => simp [tcLoop]
  | cons p ps ih =>
    unfold tcLoop
    have same : ∀ k loc pb, (∀ L, loc L = true → (tcLoop G tclip prev prevpb ps k loc pb).1 L = true) ∧
        (∀ q, q ∉ p :: ps → (tcLoop G tclip prev prevpb ps k loc pb).2 q = pb q) ∧
        (∀ q, loc (G.dest q) = true → (tcLoop G tclip prev prevpb ps k loc pb).2 q = pb q) :=
      fun k loc pb => ⟨(ih k loc pb).1,
        fun q hq => (ih k loc pb).2.1 q (fun h => hq (List.mem_cons_of_mem _ h)), (ih k loc pb).2.2⟩
    split
    · exact same _ _ _
    split
    · exact same _ _ _
    split
    · exact same _ _ _
    split
    · exact same _ _ _
    · rename_i hloc _ _ _
      refine ⟨fun L hL => (ih _ _ _).1 L (mark_mono _ _ _ hL), ?_, ?_⟩
      · intro q hq
        rw [(ih _ _ _).2.1 q (fun h => hq (List.mem_cons_of_mem _ h))]
        have h1 : q ≠ p := fun e => hq (by simp [e])
        have h2 : q ∉ ps := fun h => hq (List.mem_cons_of_mem _ h)
        simp [h1, h2]
      · intro q hq
        rw [(ih _ _ _).2.2 q (mark_mono _ _ _ hq)]
        have h1 : q ≠ p := by rintro rfl; exact hloc hq
        have h2 : G.dest q ≠ G.dest p := by intro e; rw [e] at hq; exact hloc hq
        simp [h1, h2]

theorem tcLoop_sub (tclip : C → Portal → C × Bool) (prev : Leaf → Bool) (prevpb : Portal → Bool)
    (ps : List Portal) (k : C) (loc : Leaf → Bool) (pb : Portal → Bool) (h : ∀ L, loc L = true → prev L = true) :
    ∀ L, (tcLoop G tclip prev prevpb ps k loc pb).1 L = true → prev L = true := by
  induction ps generalizing k loc pb with
  | nil => simpa [tcLoop] using h
  | cons p ps ih =>
    unfold tcLoop
    split
    · exact ih _ _ _ h
    split
    · exact ih _ _ _ h
    split
    · exact ih _ _ _ h
    split
    · exact ih _ _ _ h
    · rename_i _ hprev _ _
      apply ih
      intro L hL
      rcases (mark_iff _ _ _).1 hL with rfl | hL
      · simpa using hprev
      · exact h L hL

/-- A portal that passes all tests has its leaf and its own bit set at the end. -/
theorem tcLoop_keeps (tclip : C → Portal → C × Bool) (prev : Leaf → Bool) (prevpb : Portal → Bool)
    (ps : List Portal) (hn : ps.Nodup) (k : C) (loc : Leaf → Bool) (pb : Portal → Bool)
    {q : Portal} (hq : q ∈ ps) (h1 : prev (G.dest q) = true) (h2 : prevpb q = true)
    (K : C → Prop) (hk : K k) (hK : ∀ k p, K k → K (tclip k p).1)
    (h3 : ∀ k, K k → (tclip k q).2 = true) (h4 : loc (G.dest q) = true → pb q = true) :
    (tcLoop G tclip prev prevpb ps k loc pb).1 (G.dest q) = true ∧
    (tcLoop G tclip prev prevpb ps k loc pb).2 q = true := by
  induction ps generalizing k loc pb with
  | nil => simp at hq
  | cons p ps ih =>
    have hn' := List.nodup_cons.1 hn
    by_cases hloc : loc (G.dest q) = true
    · obtain ⟨m1, _, m3⟩ := tcLoop_mono (G := G) tclip prev prevpb (p :: ps) k loc pb
      exact ⟨m1 _ hloc, by rw [m3 q hloc, h4 hloc]⟩
    · by_cases hqp : q = p
      · subst hqp
        unfold tcLoop
        simp only [hloc, h1, h2, h3 k hk, Bool.not_true, Bool.false_eq_true, ↓reduceIte]
        obtain ⟨m1, m2, _⟩ := tcLoop_mono (G := G) tclip prev prevpb ps (tclip k q).1 (mark loc (G.dest q))
          (fun r => if r = q then true else if r ∈ ps ∧ G.dest r = G.dest q then prevpb r else pb r)
        refine ⟨m1 _ (mark_self _ _), ?_⟩
        rw [m2 q hn'.1]; simp
      · have hqs : q ∈ ps := (List.mem_cons.1 hq).resolve_left hqp
        unfold tcLoop
        have same := fun k hk => ih hn'.2 k loc pb hqs hk h4
        split
        · exact same _ hk
        split
        · exact same _ hk
        split
        · exact same _ hk
        split
        · exact same _ (hK _ _ hk)
        · apply ih hn'.2 _ _ _ hqs (hK _ _ hk)
          intro hm
          have hd : G.dest q = G.dest p := ((mark_iff _ _ _).1 hm).resolve_right hloc
          simp [hqp, hqs, hd, h2]

theorem targetChecks_sub (tclip : C → Portal → C × Bool) (k : C) (first : Bool) (prev : Leaf → Bool)
    (prevpb : Portal → Bool) :
    ∀ L, (targetChecks G tclip k first prev prevpb).1 L = true → prev L = true := by
  unfold targetChecks
  split
  · exact fun _ h => h
  · exact tcLoop_sub _ _ _ _ _ _ _ (by simp)

theorem iterTC_portals (w : Tests Portal W C) (c : List Portal) (mask : Leaf → Bool)
    (pb : Portal → Bool) (st : List (Portal × Frame Leaf W)) :
    (iterTC G w c mask pb st).map Prod.fst = st.map Prod.fst := by
  induction st generalizing c mask pb with
  | nil => simp [iterTC]
  | cons x st ih =>
    obtain ⟨p, f⟩ := x
    unfold iterTC
    simp only
    split <;> simp [ih]

theorem iterTC_sub (w : Tests Portal W C) (c : List Portal) (mask : Leaf → Bool)
    (pb : Portal → Bool) (st : List (Portal × Frame Leaf W)) (B : Leaf → Bool)
    (h : ∀ x ∈ st, ∀ L, x.2.might L = true → B L = true) :
    ∀ x ∈ iterTC G w c mask pb st, ∀ L, x.2.might L = true → B L = true := by
  induction st generalizing c mask pb with
  | nil => simp [iterTC]
  | cons x st ih =>
    obtain ⟨p, f⟩ := x
    have ht := fun x hx => h x (List.mem_cons_of_mem _ hx)
    have hf := h (p, f) List.mem_cons_self
    unfold iterTC
    simp only
    split
    · intro x hx
      rcases List.mem_cons.1 hx with rfl | hx
      · intro L hL
        simp only [Bool.and_eq_true] at hL
        exact hf L hL.1
      · exact ih _ _ _ ht x hx
    · intro x hx
      rcases List.mem_cons.1 hx with rfl | hx
      · intro L hL
        have := targetChecks_sub _ _ _ _ _ L hL
        simp only [Bool.and_eq_true] at this
        exact hf L this.1
      · exact ih _ _ _ ht x hx

/-- Target checks keep the stack invariant. -/
theorem iterTC_jaux (S : Sight G) (w : Tests Portal W C) {Ok : List Portal → W → Prop}
    {Kept : List Portal → W → C → Prop} (hs : Sound S w Ok Kept)
    (c : List Portal) (mask : Leaf → Bool) (pb : Portal → Bool) (st : List (Portal × Frame Leaf W))
    (hj : JAux S Ok c st) (hmask : ∀ L, PExt S c L → mask L = true)
    (hpb : ∀ m q, IsChain G (c ++ m ++ [q]) → S.Stab (c ++ m ++ [q]) → pb q = true) :
    JAux S Ok c (iterTC G w c mask pb st) := by
  induction st generalizing c mask pb with
  | nil => simp [iterTC, JAux]
  | cons x st ih =>
    obtain ⟨p, f⟩ := x
    obtain ⟨⟨hf, hok⟩, hr⟩ := hj
    have hmight : ∀ L, PExt S (c ++ [p]) L → (f.might L && mask L) = true := by
      intro L hL
      rw [hf L hL, hmask L hL.ofAppend]; rfl
    have hpb' : ∀ m q, IsChain G (c ++ [p] ++ m ++ [q]) → S.Stab (c ++ [p] ++ m ++ [q]) → pb q = true :=
      fun m q h1 h2 => hpb ([p] ++ m) q (by simpa using h1) (by simpa using h2)
    unfold iterTC
    simp only
    split
    · exact ⟨⟨hmight, hok⟩, ih _ _ _ hr (fun _ _ => rfl) hpb'⟩
    · have keep : (∀ L, PExt S (c ++ [p]) L →
          (targetChecks G (w.target (c ++ [p]) f.win) w.none c.isEmpty (fun L => f.might L && mask L) pb).1 L = true) ∧
          (∀ m q, IsChain G (c ++ [p] ++ m ++ [q]) → S.Stab (c ++ [p] ++ m ++ [q]) →
          (targetChecks G (w.target (c ++ [p]) f.win) w.none c.isEmpty (fun L => f.might L && mask L) pb).2 q = true) := by
        have aux : ∀ m q, IsChain G (c ++ [p] ++ m ++ [q]) → S.Stab (c ++ [p] ++ m ++ [q]) →
            (targetChecks G (w.target (c ++ [p]) f.win) w.none c.isEmpty (fun L => f.might L && mask L) pb).1 (G.dest q) = true ∧
            (targetChecks G (w.target (c ++ [p]) f.win) w.none c.isEmpty (fun L => f.might L && mask L) pb).2 q = true := by
          intro m q h1 h2
          have hm := hmight (G.dest q) ⟨m, q, h1, h2, rfl⟩
          unfold targetChecks
          split
          · exact ⟨hm, hpb' m q h1 h2⟩
          · rename_i hc
            have h2c : 2 ≤ (c ++ [p]).length := by
              cases c with
              | nil => simp at hc
              | cons a c => simp
            exact tcLoop_keeps _ _ _ _ G.nodup_portals _ _ _ (G.mem_portals q) hm (hpb' m q h1 h2)
              (Kept (c ++ [p]) f.win) (hs.fresh _ _ hok) (fun k p hk => hs.target_kept _ _ _ _ hok hk)
              (fun k hk => hs.target_stab _ m _ _ _ h2c hok hk h1 h2) (by simp)
        refine ⟨?_, fun m q h1 h2 => (aux m q h1 h2).2⟩
        rintro L ⟨m, q, h1, h2, rfl⟩
        exact (aux m q h1 h2).1
      exact ⟨⟨keep.1, hok⟩, ih _ _ _ hr keep.1 keep.2⟩

theorem maybeTC_chain (o : Oracle Leaf Portal W C) (s : FState Leaf Portal W) :
    chainOf (maybeTC G o s) = chainOf s := by
  unfold maybeTC
  split
  · simp [chainOf, iterTC_portals]
  · rfl

theorem maybeTC_vis (o : Oracle Leaf Portal W C) (s : FState Leaf Portal W) :
    (maybeTC G o s).vis = s.vis := by
  unfold maybeTC; split <;> rfl

theorem maybeTC_jaux (S : Sight G) (o : Oracle Leaf Portal W C) {Ok : List Portal → W → Prop}
    {Kept : List Portal → W → C → Prop} (ho : SoundOracle S o Ok Kept)
    (s : FState Leaf Portal W) (h : JAux S Ok [] s.stack) : JAux S Ok [] (maybeTC G o s).stack := by
  unfold maybeTC
  split
  · exact iterTC_jaux S _ ho.tests _ _ _ _ h (fun _ _ => rfl) (fun _ _ _ _ => rfl)
  · exact h

omit [DecidableEq Leaf] [DecidableEq Portal] in
theorem stack_split {st : List (Portal × Frame Leaf W)} {c : List Portal} {p : Portal}
    (h : st.map Prod.fst = c ++ [p]) : ∃ st' f, st = st' ++ [(p, f)] ∧ st'.map Prod.fst = c := by
  rw [List.map_eq_append_iff] at h
  obtain ⟨a, b, rfl, ha, hb⟩ := h
  rw [List.map_eq_singleton_iff] at hb
  obtain ⟨⟨q, f⟩, rfl, rfl⟩ := hb
  exact ⟨a, f, rfl, ha⟩

omit [DecidableEq Leaf] [DecidableEq Portal] in
theorem topMight_spec (S : Sight G) {Ok : List Portal → W → Prop} {s : FState Leaf Portal W} {c : List Portal} {p : Portal}
    (h : chainOf s = c ++ [p]) (hj : JAux S Ok [] s.stack) :
    ∀ L, PExt S (c ++ [p]) L → topMight s L = true := by
  obtain ⟨st, f, e, hc⟩ := stack_split h
  intro L hL
  rw [e, jaux_append] at hj
  have := hj.2.1.1 L (by simpa [hc] using hL)
  simp [topMight, e, this]

/-- The flow marks everything that can be seen along stabbed walks. -/
theorem flow_complete (S : Sight G) (o : Oracle Leaf Portal W C) {Ok : List Portal → W → Prop}
    {Kept : List Portal → W → C → Prop} (ho : SoundOracle S o Ok Kept) :
    (∀ onStack leaf d s, ∀ c p, Ok (c ++ [p]) d → chainOf s = c ++ [p] → leaf = G.dest p →
      (∀ L, onStack L = true ↔ L ∈ c.map G.dest) → JAux S Ok [] s.stack →
      (∀ L, Ext S (c ++ [p]) L → (flow G o onStack leaf d s).vis L = true) ∧
      JAux S Ok [] (flow G o onStack leaf d s).stack ∧ chainOf (flow G o onStack leaf d s) = c ++ [p] ∧
      (∀ L, s.vis L = true → (flow G o onStack leaf d s).vis L = true)) ∧
    (∀ onStack d ps k s, ∀ c p, Ok (c ++ [p]) d → Kept (c ++ [p]) d k → chainOf s = c ++ [p] → (∀ q ∈ ps, G.owner q = G.dest p) →
      (∀ L, onStack L = true ↔ L ∈ (c ++ [p]).map G.dest) → JAux S Ok [] s.stack →
      (∀ q ∈ ps, ∀ L, Ext S (c ++ [p] ++ [q]) L → (flowLoop G o onStack d ps k s).vis L = true) ∧
      JAux S Ok [] (flowLoop G o onStack d ps k s).stack ∧ chainOf (flowLoop G o onStack d ps k s) = c ++ [p] ∧
      (∀ L, s.vis L = true → (flowLoop G o onStack d ps k s).vis L = true)) := by
  apply flow.mutual_induct G o
    (fun onStack leaf d s => ∀ c p, Ok (c ++ [p]) d → chainOf s = c ++ [p] → leaf = G.dest p →
      (∀ L, onStack L = true ↔ L ∈ c.map G.dest) → JAux S Ok [] s.stack →
      (∀ L, Ext S (c ++ [p]) L → (flow G o onStack leaf d s).vis L = true) ∧
      JAux S Ok [] (flow G o onStack leaf d s).stack ∧ chainOf (flow G o onStack leaf d s) = c ++ [p] ∧
      (∀ L, s.vis L = true → (flow G o onStack leaf d s).vis L = true))
    (fun onStack d ps k s => ∀ c p, Ok (c ++ [p]) d → Kept (c ++ [p]) d k → chainOf s = c ++ [p] → (∀ q ∈ ps, G.owner q = G.dest p) →
      (∀ L, onStack L = true ↔ L ∈ (c ++ [p]).map G.dest) → JAux S Ok [] s.stack →
      (∀ q ∈ ps, ∀ L, Ext S (c ++ [p] ++ [q]) L → (flowLoop G o onStack d ps k s).vis L = true) ∧
      JAux S Ok [] (flowLoop G o onStack d ps k s).stack ∧ chainOf (flowLoop G o onStack d ps k s) = c ++ [p] ∧
      (∀ L, s.vis L = true → (flowLoop G o onStack d ps k s).vis L = true))
  · -- leaf already on the stack
    intro onStack leaf d s h c p hok hc hl hon hj
    rw [flow]; simp only [h, ↓reduceDIte]
    refine ⟨?_, hj, hc, fun _ h => h⟩
    intro L hL
    exfalso
    have hn := S.no_reentry _ hL.stab.1 hL.stab.2
    rw [List.map_append, List.nodup_append] at hn
    exact hn.2.2 leaf ((hon leaf).1 h) (G.dest p) (by simp) hl
  · intro onStack leaf d s h _ ih c p hok hc hl hon hj
    rw [flow]; simp only [h]
    have := ih c p hok (ho.tests.fresh _ _ hok) (by rw [maybeTC_chain]; exact hc)
      (fun q hq => by rw [← hl]; exact (G.mem_out _ _).1 hq)
      (fun L => by
        rw [mark_iff, hon L, List.map_append, List.mem_append, hl]
        simp [or_comm])
      (maybeTC_jaux S o ho _ hj)
    obtain ⟨i1, i2, i3, i4⟩ := this
    have hmono : ∀ L, mark s.vis leaf L = true → (flowLoop G o (mark onStack leaf) d (G.out leaf) o.w.none
        (maybeTC G o { s with vis := mark s.vis leaf })).vis L = true :=
      fun L hL => i4 L (by rw [maybeTC_vis]; exact hL)
    refine ⟨?_, i2, i3, fun L hL => hmono L (mark_mono _ _ _ hL)⟩
    intro L hL
    rcases hL.cases with e | ⟨q, hq, hL'⟩
    · subst e; rw [← hl]; exact hmono _ (mark_self _ _)
    · exact i1 q (by rw [hl]; exact (G.mem_out _ _).2 hq) L hL'
  · intro onStack d k s c p hok hk hc _ _ hj
    rw [flowLoop]
    exact ⟨by simp, hj, hc, fun _ h => h⟩
  · -- not in mightsee
    intro onStack d k s p ps h ih c r hok hk hc hps hon hj
    rw [flowLoop]; simp only [h, ↓reduceIte]
    obtain ⟨i1, i2, i3, i4⟩ := ih c r hok hk hc (fun q hq => hps q (List.mem_cons_of_mem _ hq)) hon hj
    refine ⟨?_, i2, i3, i4⟩
    intro q hq L hL
    rcases List.mem_cons.1 hq with rfl | hq
    · have := topMight_spec S hc hj _ hL.self.toPExt
      rw [this] at h; cases h
    · exact i1 q hq L hL
  · -- nothing new
    intro onStack d k s p ps h might s1 hm ih c r hok hk hc hps hon hj
    rw [flowLoop]; simp only [h]
    rw [if_pos hm]
    obtain ⟨i1, i2, i3, i4⟩ := ih c r hok hk hc (fun q hq => hps q (List.mem_cons_of_mem _ hq)) hon hj
    refine ⟨?_, i2, i3, i4⟩
    intro q hq L hL
    rcases List.mem_cons.1 hq with rfl | hq
    · apply i4
      have h1 := topMight_spec S hc hj _ hL.toPExt
      have h2 := ho.test s.tick q L hL.sees
      simp only [Bool.not_eq_true', List.any_eq_false] at hm
      have := hm L (G.mem_leafs L)
      simp only [might, h1, h2, Bool.and_self, Bool.true_and, Bool.not_eq_true',
        Bool.not_eq_false] at this
      exact this
    · exact i1 q hq L hL
  · -- clipped away
    intro onStack d k s p ps h might s1 hm k' hcl ih c r hok hk hc hps hon hj
    rw [flowLoop]; simp only [h]
    rw [if_neg (by simp), if_neg hm, hcl]
    have hk' : Kept (c ++ [r]) d k' := by
      have := ho.tests.step_kept _ _ _ p hok hk
      rw [← hc, hcl] at this; rw [← hc]; exact this
    obtain ⟨i1, i2, i3, i4⟩ := ih c r hok hk' hc (fun q hq => hps q (List.mem_cons_of_mem _ hq)) hon hj
    refine ⟨?_, i2, i3, i4⟩
    intro q hq L hL
    rcases List.mem_cons.1 hq with rfl | hq
    · have := ho.tests.step_stab _ _ _ _ hok hk hL.stab.1 hL.stab.2
      rw [← hc, hcl] at this; exact absurd rfl this
    · exact i1 q hq L hL
  · -- flowed through
    intro onStack d k s p ps h might s1 hm k' d' hcl s2 _ ih1 ih2 c r hok hk hc hps hon hj
    rw [flowLoop]; simp only [h]
    rw [if_neg (by simp), if_neg hm, hcl]
    have hk' : Kept (c ++ [r]) d k' := by
      have := ho.tests.step_kept _ _ _ p hok hk
      rw [← hc, hcl] at this; rw [← hc]; exact this
    have hok' : Ok (c ++ [r] ++ [p]) d' := by
      apply ho.tests.step_ok _ _ _ p d' hok hk
      rw [← hc, hcl]
    have hch : chainOf { vis := s1.vis, stack := s1.stack ++ [(p, { might := might, did := false, win := d' })],
                         tick := s1.tick } = (c ++ [r]) ++ [p] := by
      show (s.stack ++ _).map Prod.fst = _
      rw [List.map_append]
      show chainOf s ++ [p] = _
      rw [hc]
    obtain ⟨j1, j2, j3, j4⟩ := ih1 (c ++ [r]) p hok' hch rfl hon (by
      show JAux S Ok [] (s.stack ++ _)
      rw [jaux_append]
      refine ⟨hj, ⟨?_, by rw [show s.stack.map Prod.fst = c ++ [r] from hc]; simpa using hok'⟩, trivial⟩
      intro L hL
      have hL' : PExt S (c ++ [r] ++ [p]) L := by
        have : s.stack.map Prod.fst = c ++ [r] := hc
        rw [this] at hL; simpa using hL
      have h1 := topMight_spec S hc hj L hL'.ofAppend
      have h2 : Sees G S p L := by
        obtain ⟨m, q, a, b, d⟩ := hL'
        refine Ext.sees (c := c ++ [r]) ⟨m ++ [q], q, by simpa using a, by simpa using b,
          by rw [← List.append_assoc, List.getLast?_concat], d⟩
      simp [h1, ho.test s.tick p L h2])
    obtain ⟨st, f, hst, hstc⟩ := stack_split j3
    have hch2 : chainOf { vis := s2.vis, stack := s2.stack.dropLast, tick := s2.tick } = c ++ [r] := by
      show s2.stack.dropLast.map Prod.fst = _
      have : s2.stack = st ++ [(p, f)] := hst
      rw [this, List.dropLast_concat, hstc]
    obtain ⟨i1, i2, i3, i4⟩ := ih2 c r hok hk' hch2 (fun q hq => hps q (List.mem_cons_of_mem _ hq)) hon (by
      have : s2.stack = st ++ [(p, f)] := hst
      show JAux S Ok [] s2.stack.dropLast
      have hj2 : JAux S Ok [] s2.stack := j2
      rw [this] at hj2 ⊢
      rw [List.dropLast_concat]
      exact ((jaux_append _ _ _ _ _).1 hj2).1)
    refine ⟨?_, i2, i3, fun L hL => i4 L (j4 L hL)⟩
    intro q hq L hL
    rcases List.mem_cons.1 hq with rfl | hq
    · exact i4 L (j1 L hL)
    · exact i1 q hq L hL

/-- The flow marks nothing outside the first frame's `mightsee` but the leaf it starts in. -/
theorem flow_bounded (o : Oracle Leaf Portal W C) (B : Leaf → Bool) :
    (∀ onStack leaf d (s : FState Leaf Portal W), B leaf = true → (∀ L, s.vis L = true → B L = true) →
      (∀ x ∈ s.stack, ∀ L, x.2.might L = true → B L = true) →
      (∀ L, (flow G o onStack leaf d s).vis L = true → B L = true) ∧
      (∀ x ∈ (flow G o onStack leaf d s).stack, ∀ L, x.2.might L = true → B L = true)) ∧
    (∀ onStack d ps k (s : FState Leaf Portal W), (∀ L, s.vis L = true → B L = true) →
      (∀ x ∈ s.stack, ∀ L, x.2.might L = true → B L = true) →
      (∀ L, (flowLoop G o onStack d ps k s).vis L = true → B L = true) ∧
      (∀ x ∈ (flowLoop G o onStack d ps k s).stack, ∀ L, x.2.might L = true → B L = true)) := by
  have top : ∀ s : FState Leaf Portal W, (∀ x ∈ s.stack, ∀ L, x.2.might L = true → B L = true) →
      ∀ L, topMight s L = true → B L = true := by
    intro s hs L hL
    unfold topMight at hL
    cases h : s.stack.getLast? with
    | none => rw [h] at hL; cases hL
    | some x => rw [h] at hL; exact hs x (List.mem_of_getLast? h) L hL
  apply flow.mutual_induct G o
    (fun onStack leaf d s => B leaf = true → (∀ L, s.vis L = true → B L = true) →
      (∀ x ∈ s.stack, ∀ L, x.2.might L = true → B L = true) →
      (∀ L, (flow G o onStack leaf d s).vis L = true → B L = true) ∧
      (∀ x ∈ (flow G o onStack leaf d s).stack, ∀ L, x.2.might L = true → B L = true))
    (fun onStack d ps k s => (∀ L, s.vis L = true → B L = true) →
      (∀ x ∈ s.stack, ∀ L, x.2.might L = true → B L = true) →
      (∀ L, (flowLoop G o onStack d ps k s).vis L = true → B L = true) ∧
      (∀ x ∈ (flowLoop G o onStack d ps k s).stack, ∀ L, x.2.might L = true → B L = true))
  · intro onStack leaf d s h _ h1 h2
    rw [flow]; simp only [h, ↓reduceDIte]; exact ⟨h1, h2⟩
  · intro onStack leaf d s h _ ih hl h1 h2
    rw [flow]; simp only [h]
    apply ih
    · intro L hL
      rw [maybeTC_vis] at hL
      rcases (mark_iff _ _ _).1 hL with rfl | hL
      · exact hl
      · exact h1 L hL
    · unfold maybeTC
      split
      · exact iterTC_sub _ _ _ _ _ B h2
      · exact h2
  · intro onStack d k s h1 h2; rw [flowLoop]; exact ⟨h1, h2⟩
  · intro onStack d k s p ps h ih h1 h2
    rw [flowLoop]; simp only [h, ↓reduceIte]; exact ih h1 h2
  · intro onStack d k s p ps h might s1 hm ih h1 h2
    rw [flowLoop]; simp only [h]; rw [if_pos hm]; exact ih h1 h2
  · intro onStack d k s p ps h might s1 hm k' hcl ih h1 h2
    rw [flowLoop]; simp only [h]; rw [if_neg (by simp), if_neg hm, hcl]; exact ih h1 h2
  · intro onStack d k s p ps h might s1 hm k' d' hcl s2 _ ih1 ih2 h1 h2
    rw [flowLoop]; simp only [h]; rw [if_neg (by simp), if_neg hm, hcl]
    have hb : B (G.dest p) = true := top s h2 _ (by simpa using h)
    obtain ⟨a, b⟩ := ih1 hb h1 (by
      intro x hx L hL
      rcases List.mem_append.1 hx with hx | hx
      · exact h2 x hx L hL
      · rw [List.mem_singleton.1 hx] at hL
        simp only [Bool.and_eq_true] at hL
        exact top s h2 L hL.1)
    exact ih2 a (fun x hx => b x (List.dropLast_subset _ hx))

end Verif.Vis
