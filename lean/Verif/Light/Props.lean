import Verif.Light.SaveLemmas

/-!
The lightmap data of all faces, for every order in which the parallel loops run.
-/

namespace Verif.Light

theorem sampleOf_unit (b : Buf) (v k j size len : Nat) (hj : j < unit b * size) (hk : k < len) :
    v ≤ sampleOf b (unit b * (v + k * size) + j) ∧
      sampleOf b (unit b * (v + k * size) + j) < v + len * size := by
  have h1 : (k + 1) * size ≤ len * size := Nat.mul_le_mul_right _ hk
  rw [Nat.succ_mul] at h1
  cases b <;> simp only [sampleOf, unit] at * <;> omega

theorem bytes_length {i : Image} {n : Nat} (h : i.Sized n) (b : Buf) :
    (i.bytes b).length = unit b * n := by
  cases b
  · simp [Image.bytes, unit, h.1]
  · simp [Image.bytes, unit, h.2.1]
  · simp [Image.bytes, unit, h.2.2]

theorem bufSize_pos {c : Cfg} {total : Nat} {b : Buf} (ht : total ≠ 0)
    (hb : match b with
      | .grey => c.rgb = false
      | .lit => c.rgb = true ∨ c.lit = true
      | .lux => c.lux = true) : bufSize c total b ≠ 0 := by
  cases b <;> simp only [bufSize] at *
  · rw [hb]; simpa using ht
  · have : (c.rgb || c.lit) = true := by simpa using hb
    rw [this]; simpa using ht
  · rw [hb]; simpa using ht

/-- From the stores of the task of a face to the final contents of the arrays. -/
theorem stored_of {c : Cfg} {fs : List Face} {total : Nat} {g : List (Nat × Slot × Nat)}
    {ps : List (List Store × Out)} {t2 : List (Nat × Store)} {outs : List Out}
    (hg : Granted c fs g total)
    (hz : Sized fs) (ht : Tame c fs) (hp : progs c total g 0 fs = .ok ps)
    (h2 : Interleaves (ps.map Prod.fst) t2) {i : Nat} {f : Face} {p : List Store × Out}
    (hf : fs[i]? = some f) (hpi : ps[i]? = some p) {sl : Slot} {size : Nat} {imgs : List Image}
    (hi : ∀ x ∈ imgs, x.Sized size)
    (hr : (sl, size * imgs.length) ∈ requests c f) {v : Nat} (hv : offsetOf g i sl = v)
    {pre post : List Store} (hst : p.1 = pre ++ stores c total v size imgs ++ post)
    (hpost : ∀ s ∈ post, ¬(v ≤ sampleOf s.buf s.addr ∧
      sampleOf s.buf s.addr < v + imgs.length * size)) :
    Stored c ⟨total, runStores (fun _ _ => 0) (t2.map Prod.snd), outs⟩ v size imgs := by
  obtain ⟨v', hv', hd, hle, _⟩ := hg.offset i f sl _ hf hr
  have : v' = v := by omega
  subst this
  have hcomm := Nat.mul_comm size imgs.length
  have key : ∀ b : Buf, (match b with
      | .grey => c.rgb = false
      | .lit => c.rgb = true ∨ c.lit = true
      | .lux => c.lux = true) → ∀ (k : Nat) (h : k < imgs.length),
      Holds (runStores (fun _ _ => 0) (t2.map Prod.snd)) b (unit b * (v' + k * size))
        (imgs[k].bytes b) := by
    intro b hb k hk j hj
    have hj' := hj
    rw [bytes_length (hi _ (List.getElem_mem hk)) b] at hj'
    obtain ⟨r1, r2⟩ := sampleOf_unit b v' k j size imgs.length hj' hk
    have htot : total ≠ 0 := by omega
    rw [region_final hg hz ht hp h2 hf hpi hr (fun _ _ => 0) b _ (by rw [hv]; exact_mod_cast r1)
      (by rw [hv, hcomm]; exact_mod_cast r2)]
    rw [hst, runStores_append, runStores_append, runStores_other]
    · exact run_stores hi b (bufSize_pos htot hb) _ k hk j hj
    · intro s hs hsa
      apply hpost s hs
      rw [hsa.1, hsa.2]
      exact ⟨r1, r2⟩
  refine ⟨hd, ?_, ?_, ?_, ?_⟩
  · show v' + imgs.length * size ≤ total
    omega
  · intro hb k hk
    have := key .grey hb k hk
    simpa [unit, Image.bytes] using this
  · intro hb k hk
    exact key .lit hb k hk
  · intro hb k hk
    exact key .lux hb k hk

theorem recorded_eq (c : Cfg) (v : Nat) : recorded c v = fileOffset c v := by
  unfold recorded fileOffset
  split
  · rw [Int.mul_comm]
  · rfl

/-- **C106.** For every execution, every face that has lightmaps finds all of them in the
lightmap data at the offset that is recorded for it, whatever the other faces do. -/
theorem lightmaps_stored {c : Cfg} {fs : List Face} {r : Result} (hrun : Run c fs (.ok r))
    (hz : Sized fs) (ht : Tame c fs) {i : Nat} {f : Face} {s : Surf} (hf : fs[i]? = some f)
    (hs : f.surf = some s) (hk : faceKept c f s ≠ []) :
    ∃ o v, r.outs[i]? = some o ∧ ownOffset c f o = fileOffset c v ∧
      Stored c r v s.size ((faceKept c f s).map Lightmap.img) := by
  cases hrun with
  | done t1 g total ps t2 hok h1 hgr hp h2 =>
    have hg := granted h1 hgr
    obtain ⟨hlen, hps⟩ := progs_spec _ _ _ hp
    obtain ⟨p, hpi, hfp⟩ := hps i f hf
    rw [Nat.zero_add] at hfp
    have hfm : f ∈ fs := List.mem_of_getElem? hf
    obtain ⟨hb, hl⟩ := hz f hfm s hs
    have hsz : ∀ l ∈ faceKept c f s, l.Sized s := fun l h => kept_sized hb hl h
    have z1 : ∀ i ∈ (faceKept c f s).map Lightmap.img, i.Sized s.size := by
      intro i hi; obtain ⟨l, hl, rfl⟩ := List.mem_map.1 hi; exact (hsz l hl).1
    have z3 : ∀ i ∈ (faceKept c f s).map Lightmap.dimg, i.Sized s.vsize := by
      intro i hi; obtain ⟨l, hl, rfl⟩ := List.mem_map.1 hi; exact (hsz l hl).2.2
    obtain ⟨v, hv, ho, pre, post, hst, hd, hd', hbo, hpl⟩ :=
      faceProg_stores (st := p.1) (o := p.2) hs hk hfp
    have hmain := mem_main hs hk
    refine ⟨p.2, v, by simp [hpi], by rw [ho, recorded_eq], ?_⟩
    refine stored_of hg hz ht hp h2 hf hpi z1 (by rw [List.length_map]; exact hmain) hv hst ?_
    intro x hx
    cases hm : mode c f with
    | decoupled =>
      cases hn : c.novanilla with
      | true => rw [(hd' hm hn).2] at hx; simp at hx
      | false =>
        obtain ⟨w, hw, _, _, h3⟩ := hd hm hn
        rw [h3] at hx
        have h4 := stores_mem z3 x hx
        have h5 := hg.apart i f _ _ i f _ _ hf hmain hf (mem_vanilla hs (Or.inl ⟨hm, hn⟩))
          (by simp)
        rw [hv, hw] at h5
        rw [List.length_map] at h4 ⊢
        have c1 := Nat.mul_comm s.size (faceKept c f s).length
        have c2 := Nat.mul_comm s.vsize (faceKept c f s).length
        rw [c1, c2] at h5
        norm_cast at h5
        omega
    | plain => rw [(hpl (Or.inl hm)).2] at hx; simp at hx
    | sup => rw [(hpl (Or.inr hm)).2] at hx; simp at hx
    | both => rw [(hbo hm).2] at hx; simp at hx

/-- **C106.** With `-world_units_per_luxel` and without `-novanilla`, the face itself refers to
a second set of lightmaps, in the standard size, which are also all in the lightmap data. -/
theorem vanilla_stored {c : Cfg} {fs : List Face} {r : Result} (hrun : Run c fs (.ok r))
    (hz : Sized fs) (ht : Tame c fs) (hc : c.decoupled = true) (hn : c.novanilla = false)
    {i : Nat} {f : Face} {s : Surf} (hf : fs[i]? = some f)
    (hs : f.surf = some s) (hk : faceKept c f s ≠ []) :
    ∃ o v, r.outs[i]? = some o ∧ o.face.lightofs = fileOffset c v ∧
      Stored c r v s.vsize ((faceKept c f s).map Lightmap.dimg) := by
  cases hrun with
  | done t1 g total ps t2 hok h1 hgr hp h2 =>
    have hm : mode c f = .decoupled := by simp [mode, hc]
    have hg := granted h1 hgr
    obtain ⟨hlen, hps⟩ := progs_spec _ _ _ hp
    obtain ⟨p, hpi, hfp⟩ := hps i f hf
    rw [Nat.zero_add] at hfp
    have hfm : f ∈ fs := List.mem_of_getElem? hf
    obtain ⟨hb, hl⟩ := hz f hfm s hs
    have hsz : ∀ l ∈ faceKept c f s, l.Sized s := fun l h => kept_sized hb hl h
    have z3 : ∀ i ∈ (faceKept c f s).map Lightmap.dimg, i.Sized s.vsize := by
      intro i hi; obtain ⟨l, hl, rfl⟩ := List.mem_map.1 hi; exact (hsz l hl).2.2
    obtain ⟨v, hv, ho, pre, post, hst, hd, -⟩ :=
      faceProg_stores (st := p.1) (o := p.2) hs hk hfp
    obtain ⟨w, hw, rfl, how, rfl⟩ := hd hm hn
    have hvan := mem_vanilla hs (c := c) (Or.inl ⟨hm, hn⟩)
    refine ⟨p.2, w, by simp [hpi], by rw [how, recorded_eq], ?_⟩
    refine stored_of hg hz ht hp h2 hf hpi z3 (by rw [List.length_map]; exact hvan) hw
      (post := []) (by rw [hst, List.append_nil]) ?_
    intro x hx
    simp at hx

/-- **C107.** For every execution, the lightmaps of two different faces have no byte in
common. -/
theorem lightmaps_apart {c : Cfg} {fs : List Face} {r : Result} (hrun : Run c fs (.ok r))
    {i j : Nat} (hij : i ≠ j) {f f' : Face} {s s' : Surf} {o o' : Out}
    (hf : fs[i]? = some f) (hs : f.surf = some s) (hk : faceKept c f s ≠ [])
    (hf' : fs[j]? = some f') (hs' : f'.surf = some s') (hk' : faceKept c f' s' ≠ [])
    (ho : r.outs[i]? = some o) (ho' : r.outs[j]? = some o') :
    ownOffset c f o + fileOffset c ((faceKept c f s).length * s.size) ≤ ownOffset c f' o' ∨
    ownOffset c f' o' + fileOffset c ((faceKept c f' s').length * s'.size) ≤ ownOffset c f o := by
  cases hrun with
  | done t1 g total ps t2 hok h1 hgr hp h2 =>
    have hg := granted h1 hgr
    obtain ⟨hlen, hps⟩ := progs_spec _ _ _ hp
    obtain ⟨p, hpi, hfp⟩ := hps i f hf
    obtain ⟨p', hpi', hfp'⟩ := hps j f' hf'
    rw [Nat.zero_add] at hfp hfp'
    simp only [List.getElem?_map, hpi, Option.map_some, Option.some.injEq] at ho
    simp only [List.getElem?_map, hpi', Option.map_some, Option.some.injEq] at ho'
    obtain ⟨v, hv, hov, -⟩ := faceProg_stores (st := p.1) (o := p.2) hs hk hfp
    obtain ⟨v', hv', hov', -⟩ := faceProg_stores (st := p'.1) (o := p'.2) hs' hk' hfp'
    rw [← ho, ← ho', hov, hov', recorded_eq, recorded_eq]
    have h := hg.apart i f _ _ j f' _ _ hf (mem_main hs hk) hf' (mem_main hs' hk')
      (by intro h; exact hij (Prod.mk.injEq _ _ _ _ ▸ h).1)
    rw [hv, hv', Nat.mul_comm s.size, Nat.mul_comm s'.size] at h
    unfold fileOffset
    split <;> omega

/-- **C108.** The size of the lightmap data is the same for every execution. -/
theorem size_fixed {c : Cfg} {fs : List Face} {r : Result} (hrun : Run c fs (.ok r)) :
    r.total = space c fs := by
  cases hrun with
  | done t1 g total ps t2 hok h1 hgr hp h2 => exact (granted h1 hgr).total_eq

theorem saveVanilla_succeeds {c : Cfg} {total v size : Nat} {imgs : List Image}
    (hi : ∀ x ∈ imgs, x.Sized size) (h3 : total * 3 ≤ INT_MAX) (hv : v + imgs.length * size ≤ total) :
    ∃ x, saveVanilla c total v size imgs = .ok x := by
  have htr : tripled c total v = .ok () := by
    unfold tripled
    rw [if_neg]
    rintro ⟨_, h⟩
    omega
  have hch : checked c total (stores c total v size imgs) = .ok (stores c total v size imgs) := by
    unfold checked
    rw [if_pos]
    rw [List.all_eq_true]
    intro s hs
    have := stores_mem hi s hs
    simp only [decide_eq_true_eq]
    cases hb : s.buf <;> rw [hb] at this <;> simp only [bufSize, sampleOf] at this ⊢
    · split at this
      · rw [if_pos (by assumption)]; omega
      · simp at this
    · split at this
      · rw [if_pos (by assumption)]; omega
      · simp at this
    · split at this
      · rw [if_pos (by assumption)]; omega
      · simp at this
  unfold saveVanilla
  rw [if_neg (by omega)]
  simp only [Int.toNat_natCast, htr, hch, Outcome.ok_bind, Outcome.pure_eq]
  exact ⟨_, rfl⟩

theorem saveData_succeeds {c : Cfg} {total v size : Nat} {imgs : List Image}
    (hi : ∀ x ∈ imgs, x.Sized size) (h3 : total * 3 ≤ INT_MAX) (hv : v + imgs.length * size ≤ total) :
    ∃ x, saveData c total v size imgs = .ok x := by
  have hfit : fits c total v size imgs.length = true := by
    have h1 := Nat.mul_comm size imgs.length
    have h2 : size * 3 * imgs.length = 3 * (imgs.length * size) := by ring
    obtain ⟨_, _, _, rgb, lit, lux, _, _⟩ := c
    unfold fits bufSize
    cases rgb <;> cases lit <;> cases lux <;> simp <;> omega
  obtain ⟨x, hx⟩ := saveVanilla_succeeds (c := c) hi h3 hv
  unfold saveVanilla at hx
  unfold saveData
  rw [if_neg (by omega)] at hx ⊢
  rw [Int.toNat_natCast] at hx ⊢
  rw [if_pos hfit]
  exact ⟨x, hx⟩

theorem faceProg_succeeds {c : Cfg} {fs : List Face} {total : Nat}
    {g : List (Nat × Slot × Nat)} (hg : Granted c fs g total) (hz : Sized fs) (ht : Tame c fs)
    (h3 : total * 3 ≤ INT_MAX) {i : Nat} {f : Face} (hf : fs[i]? = some f) :
    ∃ p, faceProg c total g i f = .ok p := by
  have hfm : f ∈ fs := List.mem_of_getElem? hf
  unfold faceProg
  cases hs : f.surf with
  | none => exact ⟨_, rfl⟩
  | some s =>
    simp only
    by_cases hk : faceKept c f s = []
    · rw [hk]
      cases mode c f <;> simp
    · have hne : (faceKept c f s).isEmpty = false := by simpa using hk
      simp only [hne, Bool.false_eq_true, if_false]
      obtain ⟨hb, hl⟩ := hz f hfm s hs
      have hsz : ∀ l ∈ faceKept c f s, l.Sized s := fun l h => kept_sized hb hl h
      have z1 : ∀ i ∈ (faceKept c f s).map Lightmap.img, i.Sized s.size := by
        intro i hi; obtain ⟨l, hl, rfl⟩ := List.mem_map.1 hi; exact (hsz l hl).1
      have z2 : ∀ i ∈ (faceKept c f s).map Lightmap.vimg, i.Sized s.vsize := by
        intro i hi; obtain ⟨l, hl, rfl⟩ := List.mem_map.1 hi; exact (hsz l hl).2.1
      have z3 : ∀ i ∈ (faceKept c f s).map Lightmap.dimg, i.Sized s.vsize := by
        intro i hi; obtain ⟨l, hl, rfl⟩ := List.mem_map.1 hi; exact (hsz l hl).2.2
      obtain ⟨v, hv, _, hle, _⟩ := hg.offset i f _ _ hf (mem_main hs hk)
      have hle' : v + ((faceKept c f s).map Lightmap.img).length * s.size ≤ total := by
        rw [List.length_map, Nat.mul_comm]; exact hle
      obtain ⟨⟨a, st⟩, h1⟩ := saveData_succeeds (c := c) z1 h3 hle'
      rw [hv]
      cases hm : mode c f with
      | decoupled =>
        simp only [h1, Outcome.ok_bind]
        cases hn : c.novanilla with
        | true => simp
        | false =>
          obtain ⟨w, hw, _, hlw, _⟩ :=
            hg.offset i f _ _ hf (mem_vanilla hs (Or.inl ⟨hm, hn⟩))
          obtain ⟨⟨a', st'⟩, h2⟩ := saveVanilla_succeeds (c := c) (v := w) z3 h3
            (by rw [List.length_map, Nat.mul_comm]; exact hlw)
          rw [hw, h2]
          simp
      | plain => simp [h1]
      | sup => simp [h1]
      | both =>
        have hsm := Nat.mul_le_mul_left (faceKept c f s).length (ht f hfm hm s hs)
        obtain ⟨⟨a', st'⟩, h2⟩ := saveData_succeeds (c := c) (v := v) z2 h3
          (by rw [List.length_map] at hle' ⊢; omega)
        simp [h1, h2]

/-- **C109.** If the lightmap data is not larger than the third part of the largest `int`, no
execution fails or has undefined behaviour. -/
theorem save_succeeds {c : Cfg} {fs : List Face} {x : Outcome Result} (hrun : Run c fs x)
    (hst : fs.all (stylesOk c) = true) (hz : Sized fs) (ht : Tame c fs)
    (h3 : space c fs * 3 ≤ INT_MAX) : ∃ r, x = .ok r := by
  have hgr : ∀ t1, Interleaves (fs.map (requests c)) t1 → ∃ g total, grant 0 t1 = .ok (g, total) := by
    intro t1 h1
    apply grant_ok
    have hp := ((interleaves_perm _ _ h1).map (fun e => align4 e.2)).sum_nat
    rw [List.map_map, ← List.flatMap_def] at hp
    have : (t1.map (fun e => align4 e.2.2)).sum = space c fs := hp
    omega
  have hpr : ∀ t1 g total, Interleaves (fs.map (requests c)) t1 → grant 0 t1 = .ok (g, total) →
      ∃ ps, progs c total g 0 fs = .ok ps := by
    intro t1 g total h1 h2
    have hg := granted h1 h2
    apply progs_ok
    intro i f hf
    rw [Nat.zero_add]
    exact faceProg_succeeds hg hz ht (by rw [hg.total_eq]; exact h3) hf
  cases hrun with
  | noStyles h => rw [hst] at h; simp at h
  | full t1 _ h1 h2 =>
    obtain ⟨g, total, h⟩ := hgr t1 h1
    rw [h] at h2; simp at h2
  | failed t1 g total _ h1 h2 h4 =>
    obtain ⟨ps, h⟩ := hpr t1 g total h1 h2
    rw [h] at h4; simp at h4
  | undef t1 g total _ h1 h2 h4 =>
    obtain ⟨ps, h⟩ := hpr t1 g total h1 h2
    rw [h] at h4; simp at h4
  | done t1 g total ps t2 => exact ⟨_, rfl⟩

/-- There is always an execution: the one that takes the faces one after the other. -/
theorem run_exists (c : Cfg) (fs : List Face) : ∃ x, Run c fs x := by
  cases hst : fs.all (stylesOk c) with
  | false => exact ⟨_, .noStyles hst⟩
  | true =>
    have h1 := interleaves_sequential (fs.map (requests c))
    cases hg : grant 0 (sequential 0 (fs.map (requests c))) with
    | error => exact ⟨_, .full _ hst h1 hg⟩
    | ub =>
      exfalso
      have : ∀ (t : List (Nat × Slot × Nat)) (n : Nat), grant n t ≠ .ub := by
        intro t
        induction t with
        | nil => intro n h; simp [grant] at h
        | cons e t ih =>
          obtain ⟨i, sl, k⟩ := e
          intro n h
          unfold grant at h
          split at h
          · simp at h
          · rcases Outcome.bind_eq_ub.1 h with h | ⟨a, _, h⟩
            · exact ih _ h
            · simp at h
      exact this _ _ hg
    | ok x =>
      obtain ⟨g, total⟩ := x
      cases hp : progs c total g 0 fs with
      | error => exact ⟨_, .failed _ _ _ hst h1 hg hp⟩
      | ub => exact ⟨_, .undef _ _ _ hst h1 hg hp⟩
      | ok ps => exact ⟨_, .done _ _ _ _ _ hst h1 hg hp (interleaves_sequential _)⟩

end Verif.Light
