import Mathlib.Data.List.Nodup
import Mathlib.Data.List.Pairwise
import Mathlib.Tactic.Ring
import Verif.Light.Spec

namespace Verif.Light

/-! ### Interleavings -/

theorem interleaves_perm {α : Type} : ∀ (ps : List (List α)) (t : List (Nat × α)),
    Interleaves ps t → (t.map Prod.snd).Perm ps.flatten := by
  intro ps
  induction ps with
  | nil =>
    intro t h
    have : t = [] := by
      cases t with
      | nil => rfl
      | cons e t =>
        have := h e.1
        simp at this
    subst this
    simp
  | cons p ps ih =>
    intro t h
    have h0 := h 0
    simp only [List.getD_cons_zero] at h0
    let t' := (t.filter (fun e => !decide (e.1 = 0))).map (fun e => (e.1 - 1, e.2))
    have ht' : Interleaves ps t' := by
      intro i
      have := h (i + 1)
      rw [List.getD_cons_succ] at this
      rw [← this]
      simp only [t', List.filter_map, List.filter_filter, List.map_map]
      rw [show (Prod.snd ∘ fun e : Nat × α => (e.1 - 1, e.2)) = Prod.snd from rfl]
      congr 1
      apply List.filter_congr
      intro e _
      simp only [Function.comp]
      by_cases h1 : e.1 = 0
      · simp [h1]
      · have : (e.1 - 1 = i) ↔ (e.1 = i + 1) := by omega
        simp [h1, this]
    have h1 := ih t' ht'
    have h2 : (t.map Prod.snd).Perm
        (((t.filter (fun e => decide (e.1 = 0))) ++ (t.filter (fun e => !decide (e.1 = 0)))).map
          Prod.snd) :=
      (List.filter_append_perm _ t).symm.map _
    rw [List.map_append, h0] at h2
    refine h2.trans ?_
    rw [List.flatten_cons]
    refine List.Perm.append_left _ ?_
    have : (t.filter (fun e => !decide (e.1 = 0))).map Prod.snd = t'.map Prod.snd := by
      simp only [t', List.map_map]
      rfl
    rw [this]
    exact h1

/-- Running the tasks one after the other. -/
def sequential {α : Type} : Nat → List (List α) → List (Nat × α)
  | _, [] => []
  | i, p :: ps => p.map (fun a => (i, a)) ++ sequential (i + 1) ps

theorem sequential_filter {α : Type} : ∀ (ps : List (List α)) (n i : Nat),
    ((sequential n ps).filter (fun e => decide (e.1 = i))).map Prod.snd =
      if n ≤ i then ps.getD (i - n) [] else [] := by
  intro ps
  induction ps with
  | nil => intro n i; simp [sequential]
  | cons p ps ih =>
    intro n i
    simp only [sequential, List.filter_append, List.map_append, ih]
    rcases Nat.lt_trichotomy n i with h | h | h
    · rw [if_pos (by omega), if_pos (by omega)]
      have : (p.map (fun a => (n, a))).filter (fun e => decide (e.1 = i)) = [] := by
        rw [List.filter_eq_nil_iff]
        intro e he
        obtain ⟨a, _, rfl⟩ := List.mem_map.1 he
        simp; omega
      rw [this]
      have : i - n = (i - (n + 1)) + 1 := by omega
      rw [this, List.getD_cons_succ]
      simp
    · subst h
      rw [if_neg (by omega), if_pos (le_refl _)]
      have : (p.map (fun a => (n, a))).filter (fun e => decide (e.1 = n)) =
          p.map (fun a => (n, a)) := by
        rw [List.filter_eq_self]
        intro e he
        obtain ⟨a, _, rfl⟩ := List.mem_map.1 he
        simp
      rw [this]
      simp
    · rw [if_neg (by omega), if_neg (by omega)]
      have : (p.map (fun a => (n, a))).filter (fun e => decide (e.1 = i)) = [] := by
        rw [List.filter_eq_nil_iff]
        intro e he
        obtain ⟨a, _, rfl⟩ := List.mem_map.1 he
        simp; omega
      rw [this]
      simp

theorem interleaves_sequential {α : Type} (ps : List (List α)) :
    Interleaves ps (sequential 0 ps) := by
  intro i
  rw [sequential_filter]
  simp

/-! ### Reservations -/

/-- A reservation together with the offset it got. -/
structure Grant where
  face : Nat
  slot : Slot
  n : Nat
  ofs : Nat

theorem align4_ge (n : Nat) : n ≤ align4 n := by unfold align4; split <;> omega
theorem align4_dvd (n : Nat) : 4 ∣ align4 n := by unfold align4; split <;> omega

theorem grant_spec : ∀ (t : List (Nat × Slot × Nat)) (off : Nat) (g : List (Nat × Slot × Nat))
    (total : Nat), grant off t = .ok (g, total) → 4 ∣ off →
    total = off + (t.map (fun e => align4 e.2.2)).sum ∧
    ∃ z : List Grant, z.map (fun e => (e.face, e.slot, e.n)) = t ∧
      z.map (fun e => (e.face, e.slot, e.ofs)) = g ∧
      z.Pairwise (fun a b => a.ofs + a.n ≤ b.ofs) ∧
      ∀ e ∈ z, off ≤ e.ofs ∧ e.ofs + e.n ≤ total ∧ 4 ∣ e.ofs ∧ e.ofs ≤ INT_MAX := by
  intro t
  induction t with
  | nil =>
    intro off g total h _
    simp only [grant, Outcome.ok.injEq, Prod.mk.injEq] at h
    obtain ⟨rfl, rfl⟩ := h
    exact ⟨by simp, [], by simp⟩
  | cons e t ih =>
    obtain ⟨i, sl, n⟩ := e
    intro off g total h hd
    unfold grant at h
    by_cases hm : off > INT_MAX
    · rw [if_pos hm] at h; simp at h
    · rw [if_neg hm] at h
      obtain ⟨⟨g', total'⟩, h1, h2⟩ := Outcome.bind_eq_ok.1 h
      simp only [Outcome.pure_eq, Outcome.ok.injEq, Prod.mk.injEq] at h2
      obtain ⟨rfl, rfl⟩ := h2
      have ha := align4_ge n
      have hb := align4_dvd n
      obtain ⟨ht, z, hz1, hz2, hz3, hz4⟩ := ih _ _ _ h1 (by omega)
      refine ⟨by simp [ht]; omega, ⟨i, sl, n, off⟩ :: z, by simp [hz1], by simp [hz2], ?_, ?_⟩
      · rw [List.pairwise_cons]
        refine ⟨fun b hb' => ?_, hz3⟩
        have := (hz4 b hb').1
        show off + n ≤ b.ofs
        omega
      · intro e he
        rw [List.mem_cons] at he
        rcases he with rfl | he
        · refine ⟨le_refl _, ?_, hd, Nat.le_of_not_lt hm⟩
          show off + n ≤ total'
          omega
        · have := hz4 e he
          omega

theorem grant_ok : ∀ (t : List (Nat × Slot × Nat)) (off : Nat),
    off + (t.map (fun e => align4 e.2.2)).sum ≤ INT_MAX → ∃ g total, grant off t = .ok (g, total) := by
  intro t
  induction t with
  | nil => intro off _; exact ⟨[], off, rfl⟩
  | cons e t ih =>
    obtain ⟨i, sl, n⟩ := e
    intro off h
    simp only [List.map_cons, List.sum_cons] at h
    obtain ⟨g, total, hg⟩ := ih (off + align4 n) (by omega)
    refine ⟨(i, sl, off) :: g, total, ?_⟩
    unfold grant
    rw [if_neg (by omega), hg]
    rfl

theorem requests_nodup (c : Cfg) (f : Face) : ((requests c f).map Prod.fst).Nodup := by
  unfold requests
  cases f.surf with
  | none => simp
  | some s =>
    simp only
    cases mode c f <;> simp only
    all_goals split <;> (try split) <;> simp

/-- The offsets that the faces get, for one order of the reservations. -/
structure Granted (c : Cfg) (fs : List Face) (g : List (Nat × Slot × Nat)) (total : Nat) :
    Prop where
  total_eq : total = space c fs
  offset : ∀ i f sl n, fs[i]? = some f → (sl, n) ∈ requests c f →
    ∃ v : Nat, offsetOf g i sl = v ∧ 4 ∣ v ∧ v + n ≤ total ∧ v ≤ INT_MAX
  apart : ∀ i f sl n j f' sl' n', fs[i]? = some f → (sl, n) ∈ requests c f →
    fs[j]? = some f' → (sl', n') ∈ requests c f' → (i, sl) ≠ (j, sl') →
    offsetOf g i sl + n ≤ offsetOf g j sl' ∨ offsetOf g j sl' + n' ≤ offsetOf g i sl

theorem granted {c : Cfg} {fs : List Face} {t : List (Nat × Slot × Nat)}
    {g : List (Nat × Slot × Nat)} {total : Nat} (ht : Interleaves (fs.map (requests c)) t)
    (hg : grant 0 t = .ok (g, total)) : Granted c fs g total := by
  obtain ⟨h1, z, hz1, hz2, hz3, hz4⟩ := grant_spec t 0 g total hg (by simp)
  have htask : ∀ i f, fs[i]? = some f →
      (z.filter (fun e => decide (e.face = i))).map (fun e => (e.slot, e.n)) = requests c f := by
    intro i f hf
    have h := ht i
    rw [← hz1, List.filter_map, List.map_map] at h
    have : (fs.map (requests c)).getD i [] = requests c f := by
      rw [List.getD_eq_getElem?_getD, List.getElem?_map, hf]; rfl
    rw [this] at h
    exact h
  have hkey : ∀ i f, fs[i]? = some f → ∀ a ∈ z, ∀ b ∈ z, a.face = i → b.face = i →
      a.slot = b.slot → a = b := by
    intro i f hf a ha b hb hai hbi hs
    have hn := requests_nodup c f
    rw [← htask i f hf, List.map_map] at hn
    exact List.inj_on_of_nodup_map hn (List.mem_filter.2 ⟨ha, by simp [hai]⟩)
      (List.mem_filter.2 ⟨hb, by simp [hbi]⟩) hs
  have hfind : ∀ i f sl n, fs[i]? = some f → (sl, n) ∈ requests c f →
      ∃ e ∈ z, e.face = i ∧ e.slot = sl ∧ e.n = n ∧ offsetOf g i sl = e.ofs := by
    intro i f sl n hf hm
    rw [← htask i f hf] at hm
    obtain ⟨e, he, hen⟩ := List.mem_map.1 hm
    obtain ⟨hez, hei⟩ := List.mem_filter.1 he
    simp only [decide_eq_true_eq] at hei
    simp only [Prod.mk.injEq] at hen
    refine ⟨e, hez, hei, hen.1, hen.2, ?_⟩
    unfold offsetOf
    cases hfd : g.find? (fun e => decide (e.1 = i) && decide (e.2.1 = sl)) with
    | none =>
      rw [List.find?_eq_none] at hfd
      have := hfd (e.face, e.slot, e.ofs) (by rw [← hz2]; exact List.mem_map_of_mem hez)
      simp [hei, hen.1] at this
    | some x =>
      have hx := List.find?_some hfd
      have hxg := List.mem_of_find?_eq_some hfd
      rw [← hz2] at hxg
      obtain ⟨e', he', rfl⟩ := List.mem_map.1 hxg
      simp only [Bool.and_eq_true, decide_eq_true_eq] at hx
      have := hkey i f hf e hez e' he' hei hx.1 (by rw [hen.1, hx.2])
      subst this
      rfl
  refine ⟨?_, ?_, ?_⟩
  · rw [h1, space, Nat.zero_add]
    have hp := interleaves_perm _ _ ht
    have := (hp.map (fun e => align4 e.2)).sum_nat
    rw [List.map_map] at this
    rw [← List.flatMap_def] at this
    exact this
  · intro i f sl n hf hm
    obtain ⟨e, hez, h2, h3, h4, h5⟩ := hfind i f sl n hf hm
    refine ⟨e.ofs, h5, ?_⟩
    have := hz4 e hez
    rw [h4] at this
    omega
  · intro i f sl n j f' sl' n' hf hm hf' hm' hne
    obtain ⟨e, hez, h2, h3, h4, h5⟩ := hfind i f sl n hf hm
    obtain ⟨e', hez', h2', h3', h4', h5'⟩ := hfind j f' sl' n' hf' hm'
    have hee : e ≠ e' := by
      rintro rfl
      apply hne
      rw [← h2, ← h3, ← h2', ← h3']
    have hsym : z.Pairwise (fun a b => a.ofs + a.n ≤ b.ofs ∨ b.ofs + b.n ≤ a.ofs) :=
      hz3.imp (fun h => Or.inl h)
    have : Std.Symm (fun a b : Grant => a.ofs + a.n ≤ b.ofs ∨ b.ofs + b.n ≤ a.ofs) :=
      ⟨fun a b h => Or.symm h⟩
    have := hsym.forall hez hez' hee
    rw [h5, h5', ← h4, ← h4']
    omega

/-! ### Stores -/

theorem runStores_append (m : Mem) (l l' : List Store) :
    runStores m (l ++ l') = runStores (runStores m l) l' := by
  simp [runStores, List.foldl_append]

theorem runStores_other : ∀ (l : List Store) (m : Mem) (b : Buf) (a : Nat),
    (∀ s ∈ l, ¬(s.buf = b ∧ s.addr = a)) → runStores m l b a = m b a := by
  intro l
  induction l with
  | nil => intro m b a _; rfl
  | cons s l ih =>
    intro m b a h
    show runStores _ l b a = _
    rw [ih _ _ _ (fun s hs => h s (List.mem_cons_of_mem _ hs))]
    have := h s List.mem_cons_self
    show (if b = s.buf ∧ a = s.addr then s.val else m b a) = m b a
    rw [if_neg]
    rintro ⟨rfl, rfl⟩
    exact this ⟨rfl, rfl⟩

/-- The value at an address depends only on the stores to this address. -/
theorem runStores_filter : ∀ (l : List Store) (m : Mem) (b : Buf) (a : Nat),
    runStores m l b a =
      runStores m (l.filter (fun s => decide (s.buf = b) && decide (s.addr = a))) b a := by
  intro l
  induction l with
  | nil => intro m b a; rfl
  | cons s l ih =>
    intro m b a
    have e1 : runStores m (s :: l) =
        runStores (fun b' a' => if b' = s.buf ∧ a' = s.addr then s.val else m b' a') l := rfl
    by_cases hs : s.buf = b ∧ s.addr = a
    · rw [List.filter_cons_of_pos (by simp [hs.1, hs.2])]
      rw [e1, ih]
      rfl
    · rw [List.filter_cons_of_neg (by simpa using hs)]
      rw [e1, ih]
      -- the first store does not change this address
      have key : ∀ (l : List Store) (m m' : Mem), m b a = m' b a →
          runStores m l b a = runStores m' l b a := by
        intro l
        induction l with
        | nil => intro m m' h; exact h
        | cons s l ih =>
          intro m m' h
          show runStores _ l b a = runStores _ l b a
          apply ih
          show (if _ then _ else _) = (if _ then _ else _)
          rw [h]
      apply key
      show (if b = s.buf ∧ a = s.addr then s.val else m b a) = m b a
      rw [if_neg]
      rintro ⟨rfl, rfl⟩
      exact hs ⟨rfl, rfl⟩

/-- An address that only one task stores to gets what this task would store on its own. -/
theorem runStores_task {ps : List (List Store)} {t : List (Nat × Store)} (ht : Interleaves ps t)
    (m : Mem) (b : Buf) (a i : Nat)
    (h : ∀ j p, j ≠ i → ps[j]? = some p → ∀ s ∈ p, ¬(s.buf = b ∧ s.addr = a)) :
    runStores m (t.map Prod.snd) b a = runStores m (ps.getD i []) b a := by
  rw [runStores_filter, runStores_filter (ps.getD i [])]
  congr 1
  rw [← ht i, List.filter_map, List.filter_map, List.filter_filter]
  congr 1
  apply List.filter_congr
  intro e he
  simp only [Function.comp]
  by_cases hei : e.1 = i
  · simp [hei]
  · have hm : e.2 ∈ (ps.getD e.1 []) := by
      rw [← ht e.1]
      exact List.mem_map.2 ⟨e, List.mem_filter.2 ⟨he, by simp⟩, rfl⟩
    rw [List.getD_eq_getElem?_getD] at hm
    cases hp : ps[e.1]? with
    | none => rw [hp] at hm; simp at hm
    | some p =>
      rw [hp] at hm
      have := h e.1 p hei hp e.2 hm
      simp only [hei, decide_false, Bool.and_false]
      simpa using this

theorem strip_mem (b : Buf) (step : Nat) : ∀ (ds : List (List UInt8)) (start : Nat),
    (∀ d ∈ ds, d.length ≤ step) → ∀ s ∈ strip b step start ds,
      s.buf = b ∧ start ≤ s.addr ∧ s.addr < start + ds.length * step := by
  intro ds
  induction ds with
  | nil => intro start _ s hs; simp [strip] at hs
  | cons d ds ih =>
    intro start hl s hs
    simp only [strip, List.mem_append, List.mem_map] at hs
    rw [List.length_cons, Nat.succ_mul]
    rcases hs with ⟨e, he, rfl⟩ | hs
    · have h1 := hl d List.mem_cons_self
      have h2 : e.2 < d.length := by
        have := List.snd_lt_of_mem_zipIdx (x := e) he
        omega
      refine ⟨rfl, ?_, ?_⟩
      · show start ≤ start + e.2; omega
      · show start + e.2 < _
        omega
    · have := ih (start + step) (fun d hd => hl d (List.mem_cons_of_mem _ hd)) s hs
      exact ⟨this.1, by omega, by omega⟩

theorem run_zipIdx (b : Buf) (start : Nat) : ∀ (d : List UInt8) (n : Nat) (m : Mem) (k : Nat)
    (h : k < d.length),
    runStores m ((d.zipIdx n).map (fun e => (⟨b, start + e.2, e.1⟩ : Store))) b (start + n + k) =
      d[k] := by
  intro d
  induction d with
  | nil => intro n m k h; simp at h
  | cons x d ih =>
    intro n m k h
    rw [List.zipIdx_cons, List.map_cons]
    show runStores _ _ b _ = _
    cases k with
    | zero =>
      rw [show ∀ (s : Store) (l : List Store), s :: l = [s] ++ l from fun _ _ => rfl,
        runStores_append, runStores_other]
      · simp [runStores]
      · intro s hs
        obtain ⟨e, he, rfl⟩ := List.mem_map.1 hs
        have := List.le_snd_of_mem_zipIdx he
        intro h
        have h2 : start + e.2 = start + n + 0 := h.2
        omega
    | succ k =>
      rw [show ∀ (s : Store) (l : List Store), s :: l = [s] ++ l from fun _ _ => rfl,
        runStores_append]
      have := ih (n + 1) (runStores m [⟨b, start + n, x⟩]) k (by simpa using h)
      rw [show start + n + (k + 1) = start + (n + 1) + k by omega]
      simpa using this

theorem run_strip (b : Buf) (step : Nat) : ∀ (ds : List (List UInt8)) (start : Nat) (m : Mem),
    (∀ d ∈ ds, d.length ≤ step) → ∀ (k : Nat) (hk : k < ds.length) (j : Nat)
    (hj : j < ds[k].length),
    runStores m (strip b step start ds) b (start + k * step + j) = ds[k][j] := by
  intro ds
  induction ds with
  | nil => intro start m _ k hk; simp at hk
  | cons d ds ih =>
    intro start m hl k hk j hj
    rw [strip, runStores_append]
    cases k with
    | zero =>
      rw [runStores_other]
      · have := run_zipIdx b start d 0 m j hj
        simpa using this
      · intro s hs
        have h1 := strip_mem b step ds (start + step)
          (fun d hd => hl d (List.mem_cons_of_mem _ hd)) s hs
        have h2 := hl d List.mem_cons_self
        simp only [List.getElem_cons_zero] at hj
        omega
    | succ k =>
      have := ih (start + step) (runStores m
        (d.zipIdx.map (fun e => (⟨b, start + e.2, e.1⟩ : Store))))
        (fun d hd => hl d (List.mem_cons_of_mem _ hd)) k (by simpa using hk) j (by simpa using hj)
      rw [show start + (k + 1) * step + j = start + step + k * step + j by
        rw [Nat.succ_mul]; omega]
      simpa using this

/-- The number of the sample that a byte belongs to. -/
def sampleOf (b : Buf) (a : Nat) : Nat :=
  match b with
  | .grey => a
  | .lit => a / 3
  | .lux => a / 3

theorem stores_mem {c : Cfg} {total ofs size : Nat} {imgs : List Image}
    (hs : ∀ i ∈ imgs, i.Sized size) : ∀ s ∈ stores c total ofs size imgs,
      bufSize c total s.buf ≠ 0 ∧ ofs ≤ sampleOf s.buf s.addr ∧
        sampleOf s.buf s.addr < ofs + imgs.length * size := by
  intro s h
  have hm : imgs.length * (size * 3) = 3 * (imgs.length * size) := by ring
  unfold stores at h
  rw [List.mem_append, List.mem_append] at h
  rcases h with (h | h) | h
  · by_cases hb : bufSize c total .grey ≠ 0
    · rw [if_pos hb] at h
      have := strip_mem .grey size (imgs.map Image.grey) ofs
        (by intro d hd; obtain ⟨i, hi, rfl⟩ := List.mem_map.1 hd; exact le_of_eq (hs i hi).1) s h
      rw [this.1]
      rw [List.length_map] at this
      exact ⟨hb, this.2⟩
    · rw [if_neg hb] at h; simp at h
  · by_cases hb : bufSize c total .lit ≠ 0
    · rw [if_pos hb] at h
      have := strip_mem .lit (size * 3) (imgs.map Image.rgb) (ofs * 3)
        (by
          intro d hd; obtain ⟨i, hi, rfl⟩ := List.mem_map.1 hd
          have := (hs i hi).2.1
          omega) s h
      rw [this.1]
      rw [List.length_map, hm] at this
      refine ⟨hb, ?_⟩
      simp only [sampleOf]
      omega
    · rw [if_neg hb] at h; simp at h
  · by_cases hb : bufSize c total .lux ≠ 0
    · rw [if_pos hb] at h
      have := strip_mem .lux (size * 3) (imgs.map Image.dir) (ofs * 3)
        (by
          intro d hd; obtain ⟨i, hi, rfl⟩ := List.mem_map.1 hd
          have := (hs i hi).2.2
          omega) s h
      rw [this.1]
      rw [List.length_map, hm] at this
      refine ⟨hb, ?_⟩
      simp only [sampleOf]
      omega
    · rw [if_neg hb] at h; simp at h

/-- The bytes of an image in one of the arrays. -/
def Image.bytes (i : Image) : Buf → List UInt8
  | .grey => i.grey
  | .lit => i.rgb
  | .lux => i.dir

/-- The number of bytes for one sample. -/
def unit : Buf → Nat
  | .grey => 1
  | .lit => 3
  | .lux => 3

theorem run_stores {c : Cfg} {total ofs size : Nat} {imgs : List Image}
    (hs : ∀ i ∈ imgs, i.Sized size) (b : Buf) (hb : bufSize c total b ≠ 0) (m : Mem)
    (k : Nat) (hk : k < imgs.length) (j : Nat) (hj : j < (imgs[k].bytes b).length) :
    runStores m (stores c total ofs size imgs) b (unit b * (ofs + k * size) + j) =
      (imgs[k].bytes b)[j] := by
  have h1 : ∀ i ∈ imgs, i.grey.length ≤ size := fun i hi => le_of_eq (hs i hi).1
  have h2 : ∀ i ∈ imgs, i.rgb.length ≤ size * 3 := fun i hi => by
    have := (hs i hi).2.1; omega
  have h3 : ∀ i ∈ imgs, i.dir.length ≤ size * 3 := fun i hi => by
    have := (hs i hi).2.2; omega
  have g1 : ∀ d ∈ imgs.map Image.grey, d.length ≤ size := by
    intro d hd; obtain ⟨i, hi, rfl⟩ := List.mem_map.1 hd; exact h1 i hi
  have g2 : ∀ d ∈ imgs.map Image.rgb, d.length ≤ size * 3 := by
    intro d hd; obtain ⟨i, hi, rfl⟩ := List.mem_map.1 hd; exact h2 i hi
  have g3 : ∀ d ∈ imgs.map Image.dir, d.length ≤ size * 3 := by
    intro d hd; obtain ⟨i, hi, rfl⟩ := List.mem_map.1 hd; exact h3 i hi
  unfold stores
  rw [runStores_append, runStores_append]
  cases b with
  | grey =>
    rw [if_pos hb, runStores_other, runStores_other]
    · have := run_strip .grey size (imgs.map Image.grey) ofs m g1 k (by simpa using hk) j
        (by simpa [Image.bytes] using hj)
      rw [show unit .grey * (ofs + k * size) + j = ofs + k * size + j by simp [unit]]
      rw [this]
      simp [Image.bytes]
    · intro s h
      split at h
      · have := (strip_mem _ _ _ _ g2 s h).1
        rw [this]; simp
      · simp at h
    · intro s h
      split at h
      · have := (strip_mem _ _ _ _ g3 s h).1
        rw [this]; simp
      · simp at h
  | lit =>
    rw [runStores_other, if_pos hb]
    · have := run_strip .lit (size * 3) (imgs.map Image.rgb) (ofs * 3)
        (runStores m (if bufSize c total .grey ≠ 0 then strip .grey size ofs (imgs.map Image.grey)
          else [])) g2 k (by simpa using hk) j (by simpa [Image.bytes] using hj)
      rw [show unit .lit * (ofs + k * size) + j = ofs * 3 + k * (size * 3) + j by
        simp only [unit]; ring]
      rw [this]
      simp [Image.bytes]
    · intro s h
      split at h
      · have := (strip_mem _ _ _ _ g3 s h).1
        rw [this]; simp
      · simp at h
  | lux =>
    rw [if_pos hb]
    have := run_strip .lux (size * 3) (imgs.map Image.dir) (ofs * 3)
      (runStores (runStores m (if bufSize c total .grey ≠ 0 then
        strip .grey size ofs (imgs.map Image.grey) else []))
        (if bufSize c total .lit ≠ 0 then strip .lit (size * 3) (ofs * 3) (imgs.map Image.rgb)
          else [])) g3 k (by simpa using hk) j (by simpa [Image.bytes] using hj)
    rw [show unit .lux * (ofs + k * size) + j = ofs * 3 + k * (size * 3) + j by
      simp only [unit]; ring]
    rw [this]
    simp [Image.bytes]

end Verif.Light
