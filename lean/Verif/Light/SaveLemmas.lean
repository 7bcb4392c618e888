import Verif.Light.Lemmas

namespace Verif.Light

theorem progs_spec {c : Cfg} {total : Nat} {g : List (Nat × Slot × Nat)} :
    ∀ (fs : List Face) (n : Nat) (ps : List (List Store × Out)), progs c total g n fs = .ok ps →
      ps.length = fs.length ∧ ∀ i f, fs[i]? = some f →
        ∃ p, ps[i]? = some p ∧ faceProg c total g (n + i) f = .ok p := by
  intro fs
  induction fs with
  | nil =>
    intro n ps h
    simp only [progs, Outcome.ok.injEq] at h
    subst h
    simp
  | cons f fs ih =>
    intro n ps h
    unfold progs at h
    obtain ⟨p, hp, h⟩ := Outcome.bind_eq_ok.1 h
    obtain ⟨ps', hps, h⟩ := Outcome.bind_eq_ok.1 h
    simp only [Outcome.pure_eq, Outcome.ok.injEq] at h
    subst h
    obtain ⟨h1, h2⟩ := ih _ _ hps
    refine ⟨by simp [h1], fun i f' hf => ?_⟩
    cases i with
    | zero =>
      simp only [List.getElem?_cons_zero, Option.some.injEq] at hf
      subst hf
      exact ⟨p, by simp, by simpa using hp⟩
    | succ i =>
      rw [List.getElem?_cons_succ] at hf
      obtain ⟨p', hp', hf'⟩ := h2 i f' hf
      refine ⟨p', by simpa using hp', ?_⟩
      rw [← hf']
      congr 1
      omega

theorem progs_ok {c : Cfg} {total : Nat} {g : List (Nat × Slot × Nat)} :
    ∀ (fs : List Face) (n : Nat), (∀ i f, fs[i]? = some f →
      ∃ p, faceProg c total g (n + i) f = .ok p) → ∃ ps, progs c total g n fs = .ok ps := by
  intro fs
  induction fs with
  | nil => intro n _; exact ⟨[], rfl⟩
  | cons f fs ih =>
    intro n h
    obtain ⟨p, hp⟩ := h 0 f (by simp)
    obtain ⟨ps, hps⟩ := ih (n + 1) (fun i f' hf => by
      have := h (i + 1) f' (by simpa using hf)
      rw [show n + 1 + i = n + (i + 1) by omega]
      exact this)
    refine ⟨p :: ps, ?_⟩
    unfold progs
    rw [show n = n + 0 from rfl, hp]
    simp only [Outcome.ok_bind]
    rw [show n + 0 + 1 = n + 1 from rfl, hps]
    rfl

theorem checked_ok {c : Cfg} {total : Nat} {l st : List Store} (h : checked c total l = .ok st) :
    st = l ∧ ∀ s ∈ l, s.addr < bufSize c total s.buf := by
  unfold checked at h
  split at h
  · rename_i hall
    simp only [Outcome.ok.injEq] at h
    refine ⟨h.symm, fun s hs => ?_⟩
    have := List.all_eq_true.1 hall s hs
    simpa using this
  · simp at h

theorem saveVanilla_ok {c : Cfg} {total : Nat} {ofs : Int} {size : Nat} {imgs : List Image}
    {o : Int} {st : List Store} (h : saveVanilla c total ofs size imgs = .ok (o, st)) :
    ∃ v : Nat, ofs = v ∧ st = stores c total v size imgs ∧ o = recorded c v := by
  unfold saveVanilla at h
  split at h
  · simp at h
  · rename_i hn
    obtain ⟨_, _, h⟩ := Outcome.bind_eq_ok.1 h
    obtain ⟨st', h1, h⟩ := Outcome.bind_eq_ok.1 h
    simp only [Outcome.pure_eq, Outcome.ok.injEq, Prod.mk.injEq] at h
    obtain ⟨rfl, rfl⟩ := h
    exact ⟨ofs.toNat, by omega, (checked_ok h1).1, rfl⟩

theorem saveData_ok {c : Cfg} {total : Nat} {ofs : Int} {size : Nat} {imgs : List Image}
    {o : Int} {st : List Store} (h : saveData c total ofs size imgs = .ok (o, st)) :
    ∃ v : Nat, ofs = v ∧ st = stores c total v size imgs ∧ o = recorded c v := by
  unfold saveData at h
  split at h
  · simp at h
  · rename_i hn
    obtain ⟨_, _, h⟩ := Outcome.bind_eq_ok.1 h
    split at h
    · obtain ⟨st', h1, h⟩ := Outcome.bind_eq_ok.1 h
      simp only [Outcome.pure_eq, Outcome.ok.injEq, Prod.mk.injEq] at h
      obtain ⟨rfl, rfl⟩ := h
      exact ⟨ofs.toNat, by omega, (checked_ok h1).1, rfl⟩
    · simp at h

/-! ### The lightmaps that are kept -/

theorem byBrightness_perm (l : List Lightmap) : (byBrightness l).Perm l := by
  unfold byBrightness
  have h := ((List.reverse_perm _).trans (List.perm_insertionSort
    (fun a b => pairLe a b = true) l.zipIdx)).map Prod.fst
  rwa [List.zipIdx_map_fst] at h

theorem kept_mem {c : Cfg} {sup : Bool} {s : Surf} {l : Lightmap} (h : l ∈ kept c sup s) :
    l ∈ sortable c sup s :=
  (byBrightness_perm _).mem_iff.1 (List.mem_of_mem_take h)

theorem sortable_mem {c : Cfg} {sup : Bool} {s : Surf} {l : Lightmap}
    (h : l ∈ sortable c sup s) :
    l = { s.blank with style := 0, avg := 0 } ∨ (l ∈ s.lightmaps ∧ wanted c sup l = true) := by
  unfold sortable at h
  simp only at h
  split at h
  · left; simpa using h
  · right; simpa using h

theorem kept_sized {c : Cfg} {sup : Bool} {s : Surf} (hb : s.blank.Sized s)
    (hl : ∀ l ∈ s.lightmaps, l.Sized s) {l : Lightmap} (h : l ∈ kept c sup s) : l.Sized s := by
  rcases sortable_mem (kept_mem h) with rfl | ⟨h, _⟩
  · exact hb
  · exact hl l h

/-! ### The stores of one face -/

theorem mem_main {c : Cfg} {f : Face} {s : Surf} (hs : f.surf = some s)
    (hk : faceKept c f s ≠ []) :
    (Slot.main, s.size * (faceKept c f s).length) ∈ requests c f := by
  have : (faceKept c f s).length ≠ 0 := by simpa using hk
  unfold requests
  rw [hs]
  simp only
  rw [if_pos this]
  simp

theorem mem_vanilla {c : Cfg} {f : Face} {s : Surf} (hs : f.surf = some s)
    (hm : mode c f = .decoupled ∧ c.novanilla = false ∨ mode c f = .both) :
    (Slot.vanilla, s.vsize * (faceKept c f s).length) ∈ requests c f := by
  unfold requests
  rw [hs]
  simp only
  rcases hm with ⟨h1, h2⟩ | h1
  · rw [h1, h2]; simp
  · rw [h1]; simp

/-- What the second loop does for a face that has lightmaps to save. -/
theorem faceProg_stores {c : Cfg} {total : Nat} {g : List (Nat × Slot × Nat)} {i : Nat}
    {f : Face} {s : Surf} {st : List Store} {o : Out} (hs : f.surf = some s)
    (hk : faceKept c f s ≠ []) (h : faceProg c total g i f = .ok (st, o)) :
    ∃ v : Nat, offsetOf g i .main = v ∧ ownOffset c f o = recorded c v ∧
      ∃ pre post, st = pre ++ stores c total v s.size ((faceKept c f s).map Lightmap.img) ++ post ∧
      (mode c f = .decoupled → c.novanilla = false → ∃ w : Nat, offsetOf g i .vanilla = w ∧
        pre = [] ∧ o.face.lightofs = recorded c w ∧
        post = stores c total w s.vsize ((faceKept c f s).map Lightmap.dimg)) ∧
      (mode c f = .decoupled → c.novanilla = true → pre = [] ∧ post = []) ∧
      (mode c f = .both → pre = stores c total v s.vsize ((faceKept c f s).map Lightmap.vimg) ∧
        post = []) ∧
      (mode c f = .plain ∨ mode c f = .sup → pre = [] ∧ post = []) := by
  have hne : (faceKept c f s).isEmpty = false := by simpa using hk
  unfold faceProg at h
  rw [hs] at h
  simp only [hne, Bool.false_eq_true, if_false] at h
  cases hm : mode c f with
  | decoupled =>
    rw [hm] at h
    simp only at h
    obtain ⟨⟨ofs, st1⟩, h1, h⟩ := Outcome.bind_eq_ok.1 h
    obtain ⟨v, hv, rfl, rfl⟩ := saveData_ok h1
    simp only at h
    by_cases hn : c.novanilla = true
    · rw [if_pos hn] at h
      simp only [Outcome.pure_eq, Outcome.ok.injEq, Prod.mk.injEq] at h
      obtain ⟨rfl, rfl⟩ := h
      refine ⟨v, hv, by simp [ownOffset, hm], [], [], by simp, ?_, ?_, ?_, ?_⟩
      · intro _ h; rw [hn] at h; simp at h
      · intro _ _; exact ⟨rfl, rfl⟩
      · intro h; simp at h
      · intro h; simp at h
    · rw [if_neg hn] at h
      obtain ⟨⟨vofs, vst⟩, h2, h⟩ := Outcome.bind_eq_ok.1 h
      obtain ⟨w, hw, rfl, rfl⟩ := saveVanilla_ok h2
      simp only [Outcome.pure_eq, Outcome.ok.injEq, Prod.mk.injEq] at h
      obtain ⟨rfl, rfl⟩ := h
      refine ⟨v, hv, by simp [ownOffset, hm], [], _, by rw [List.nil_append], ?_, ?_, ?_, ?_⟩
      · intro _ _; exact ⟨w, hw, rfl, rfl, rfl⟩
      · intro _ h; exact absurd h hn
      · intro h; simp at h
      · intro h; simp at h
  | plain =>
    rw [hm] at h
    simp only at h
    obtain ⟨⟨ofs, st1⟩, h1, h⟩ := Outcome.bind_eq_ok.1 h
    obtain ⟨v, hv, rfl, rfl⟩ := saveData_ok h1
    simp only [Outcome.pure_eq, Outcome.ok.injEq, Prod.mk.injEq] at h
    obtain ⟨rfl, rfl⟩ := h
    refine ⟨v, hv, by simp [ownOffset, hm], [], [], by simp, ?_, ?_, ?_, ?_⟩
    · intro h; simp at h
    · intro h; simp at h
    · intro h; simp at h
    · intro _; exact ⟨rfl, rfl⟩
  | sup =>
    rw [hm] at h
    simp only at h
    obtain ⟨⟨ofs, st1⟩, h1, h⟩ := Outcome.bind_eq_ok.1 h
    obtain ⟨v, hv, rfl, rfl⟩ := saveData_ok h1
    simp only [Outcome.pure_eq, Outcome.ok.injEq, Prod.mk.injEq] at h
    obtain ⟨rfl, rfl⟩ := h
    refine ⟨v, hv, by simp [ownOffset, hm], [], [], by simp, ?_, ?_, ?_, ?_⟩
    · intro h; simp at h
    · intro h; simp at h
    · intro h; simp at h
    · intro _; exact ⟨rfl, rfl⟩
  | both =>
    rw [hm] at h
    simp only at h
    obtain ⟨⟨ofs, st1⟩, h1, h⟩ := Outcome.bind_eq_ok.1 h
    obtain ⟨v, hv, rfl, rfl⟩ := saveData_ok h1
    obtain ⟨⟨ofs', st2⟩, h2, h⟩ := Outcome.bind_eq_ok.1 h
    obtain ⟨v', hv', rfl, rfl⟩ := saveData_ok h2
    have : v' = v := by omega
    subst this
    simp only [Outcome.pure_eq, Outcome.ok.injEq, Prod.mk.injEq] at h
    obtain ⟨rfl, rfl⟩ := h
    refine ⟨v', hv, by simp [ownOffset, hm], _, [], by rw [List.append_nil], ?_, ?_, ?_, ?_⟩
    · intro h; simp at h
    · intro h; simp at h
    · intro _; exact ⟨rfl, rfl⟩
    · intro h; simp at h

theorem faceProg_empty {c : Cfg} {total : Nat} {g : List (Nat × Slot × Nat)} {i : Nat}
    {f : Face} {st : List Store} {o : Out} (hk : ∀ s, f.surf = some s → faceKept c f s = [])
    (h : faceProg c total g i f = .ok (st, o)) : st = [] := by
  unfold faceProg at h
  cases hs : f.surf with
  | none =>
    rw [hs] at h
    simp only [Outcome.ok.injEq, Prod.mk.injEq] at h
    exact h.1.symm
  | some s =>
    rw [hs] at h
    simp only [hk s hs, List.isEmpty_nil, if_true] at h
    cases hm : mode c f <;> rw [hm] at h <;>
      simp only [Outcome.ok.injEq, Prod.mk.injEq] at h <;> exact h.1.symm

/-- All stores of a face go to the space that was reserved for it. -/
theorem faceProg_region {c : Cfg} {fs : List Face} {total : Nat} {g : List (Nat × Slot × Nat)}
    {i : Nat} {f : Face} {st : List Store} {o : Out} (hz : Sized fs) (ht : Tame c fs)
    (hf : f ∈ fs) (h : faceProg c total g i f = .ok (st, o)) :
    ∀ x ∈ st, ∃ sl n, (sl, n) ∈ requests c f ∧ offsetOf g i sl ≤ sampleOf x.buf x.addr ∧
      (sampleOf x.buf x.addr : Int) < offsetOf g i sl + n := by
  by_cases hk : ∀ s, f.surf = some s → faceKept c f s = []
  · have := faceProg_empty hk h
    subst this
    simp
  · push Not at hk
    obtain ⟨s, hs, hk⟩ := hk
    obtain ⟨hb, hl⟩ := hz f hf s hs
    have hsz : ∀ l ∈ faceKept c f s, l.Sized s := fun l h => kept_sized hb hl h
    have z1 : ∀ i ∈ (faceKept c f s).map Lightmap.img, i.Sized s.size := by
      intro i hi; obtain ⟨l, hl, rfl⟩ := List.mem_map.1 hi; exact (hsz l hl).1
    have z2 : ∀ i ∈ (faceKept c f s).map Lightmap.vimg, i.Sized s.vsize := by
      intro i hi; obtain ⟨l, hl, rfl⟩ := List.mem_map.1 hi; exact (hsz l hl).2.1
    have z3 : ∀ i ∈ (faceKept c f s).map Lightmap.dimg, i.Sized s.vsize := by
      intro i hi; obtain ⟨l, hl, rfl⟩ := List.mem_map.1 hi; exact (hsz l hl).2.2
    obtain ⟨v, hv, _, pre, post, rfl, hd, hd', hbo, hp⟩ := faceProg_stores hs hk h
    have hmain := mem_main hs hk
    intro x hx
    have hc1 := Nat.mul_comm s.size (faceKept c f s).length
    have hc2 := Nat.mul_comm s.vsize (faceKept c f s).length
    rw [List.mem_append, List.mem_append] at hx
    rcases hx with (hx | hx) | hx
    · cases hm : mode c f with
      | decoupled =>
        cases hn : c.novanilla with
        | true => rw [(hd' hm hn).1] at hx; simp at hx
        | false =>
          obtain ⟨w, _, h1, _⟩ := hd hm hn
          rw [h1] at hx; simp at hx
      | plain => rw [(hp (Or.inl hm)).1] at hx; simp at hx
      | sup => rw [(hp (Or.inr hm)).1] at hx; simp at hx
      | both =>
        rw [(hbo hm).1] at hx
        have h1 := stores_mem z2 x hx
        rw [List.length_map] at h1
        have h2 := ht f hf hm s hs
        have h3 := Nat.mul_le_mul_left (faceKept c f s).length h2
        refine ⟨_, _, hmain, ?_, ?_⟩
        · rw [hv]; exact_mod_cast h1.2.1
        · rw [hv]
          have : sampleOf x.buf x.addr < v + s.size * (faceKept c f s).length := by omega
          exact_mod_cast this
    · have h1 := stores_mem z1 x hx
      rw [List.length_map] at h1
      refine ⟨_, _, hmain, ?_, ?_⟩
      · rw [hv]; exact_mod_cast h1.2.1
      · rw [hv]
        have : sampleOf x.buf x.addr < v + s.size * (faceKept c f s).length := by omega
        exact_mod_cast this
    · cases hm : mode c f with
      | decoupled =>
        cases hn : c.novanilla with
        | true => rw [(hd' hm hn).2] at hx; simp at hx
        | false =>
          obtain ⟨w, hw, _, _, h1⟩ := hd hm hn
          rw [h1] at hx
          have h1 := stores_mem z3 x hx
          rw [List.length_map] at h1
          refine ⟨_, _, mem_vanilla hs (Or.inl ⟨hm, hn⟩), ?_, ?_⟩
          · rw [hw]; exact_mod_cast h1.2.1
          · rw [hw]
            have : sampleOf x.buf x.addr < w + s.vsize * (faceKept c f s).length := by omega
            exact_mod_cast this
      | plain => rw [(hp (Or.inl hm)).2] at hx; simp at hx
      | sup => rw [(hp (Or.inr hm)).2] at hx; simp at hx
      | both => rw [(hbo hm).2] at hx; simp at hx

/-- In an interleaving of the second loop the space of one reservation holds what the task of
this face stores there. -/
theorem region_final {c : Cfg} {fs : List Face} {total : Nat} {g : List (Nat × Slot × Nat)}
    {ps : List (List Store × Out)} {t2 : List (Nat × Store)} (hg : Granted c fs g total)
    (hz : Sized fs) (ht : Tame c fs) (hp : progs c total g 0 fs = .ok ps)
    (h2 : Interleaves (ps.map Prod.fst) t2) {i : Nat} {f : Face} {p : List Store × Out}
    (hf : fs[i]? = some f) (hpi : ps[i]? = some p) {sl : Slot} {n : Nat}
    (hr : (sl, n) ∈ requests c f) (m : Mem) (b : Buf) (a : Nat)
    (ha : offsetOf g i sl ≤ sampleOf b a) (ha' : (sampleOf b a : Int) < offsetOf g i sl + n) :
    runStores m (t2.map Prod.snd) b a = runStores m p.1 b a := by
  obtain ⟨hlen, hps⟩ := progs_spec _ _ _ hp
  rw [runStores_task h2 m b a i]
  · congr 1
    rw [List.getD_eq_getElem?_getD, List.getElem?_map, hpi]
    rfl
  · intro j q hji hq x hx hxa
    rw [List.getElem?_map] at hq
    obtain ⟨q', hq', rfl⟩ := Option.map_eq_some_iff.1 hq
    have hj : j < fs.length := by
      have := (List.getElem?_eq_some_iff.1 hq').1
      omega
    have hfj : fs[j]? = some fs[j] := List.getElem?_eq_getElem hj
    obtain ⟨p', hp', hfp⟩ := hps j _ hfj
    rw [hq'] at hp'
    simp only [Option.some.injEq] at hp'
    subst hp'
    rw [Nat.zero_add] at hfp
    obtain ⟨sl', n', hr', h3, h4⟩ :=
      faceProg_region (st := q'.1) (o := q'.2) hz ht (List.getElem_mem hj) hfp x hx
    have := hg.apart i f sl n j _ sl' n' hf hr hfj hr' (by
      intro h
      exact hji (Prod.mk.injEq _ _ _ _ ▸ h).1.symm)
    rw [hxa.1, hxa.2] at h3 h4
    omega

end Verif.Light
