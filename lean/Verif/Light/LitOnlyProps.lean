import Verif.Light.LitOnly
import Verif.Light.Props
import Verif.Light.StyleProps
import Verif.Light.ImageProps

/-!
Properties of the option `-litonly`.
-/

namespace Verif.Light

/-- The part of the lightmap data that the BSP file has for a face is within the data. -/
def LitInside (total : Nat) (fs : List Face) : Prop :=
  ∀ f ∈ fs, ∀ s, f.surf = some s → f.old.lightofs = -1 ∨
    0 ≤ f.old.lightofs ∧ f.old.lightofs + (litStyles f.old).length * s.size ≤ total

/-- The parts for different faces have no sample in common. -/
def LitApart (fs : List Face) : Prop :=
  ∀ (i j : Nat) (f f' : Face) (s s' : Surf), i ≠ j → fs[i]? = some f → fs[j]? = some f' →
    f.surf = some s → f'.surf = some s' → f.old.lightofs ≠ -1 → f'.old.lightofs ≠ -1 →
    f.old.lightofs + (litStyles f.old).length * s.size ≤ f'.old.lightofs ∨
    f'.old.lightofs + (litStyles f'.old).length * s'.size ≤ f.old.lightofs

theorem litStores_mem {c : Cfg} {total size : Nat} : ∀ {l : List (Option Image)} {ofs : Nat},
    (∀ i, some i ∈ l → i.Sized size) → ∀ s ∈ litStores c total size ofs l,
      bufSize c total s.buf ≠ 0 ∧ ofs ≤ sampleOf s.buf s.addr ∧
        sampleOf s.buf s.addr < ofs + l.length * size := by
  intro l
  induction l with
  | nil => intro ofs _ s hs; simp [litStores] at hs
  | cons x l ih =>
    intro ofs hl s hs
    rw [litStores, List.mem_append] at hs
    rw [List.length_cons, Nat.succ_mul]
    rcases hs with hs | hs
    · cases x with
      | none => simp [litSlot] at hs
      | some i =>
        have := stores_mem (imgs := [i]) (by simpa using hl i (by simp)) s hs
        rw [List.length_singleton, Nat.one_mul] at this
        exact ⟨this.1, this.2.1, by omega⟩
    · have := ih (fun i hi => hl i (by simp [hi])) s hs
      exact ⟨this.1, by omega, by omega⟩

theorem run_litStores {c : Cfg} {total size : Nat} : ∀ {l : List (Option Image)} {ofs : Nat},
    (∀ i, some i ∈ l → i.Sized size) → ∀ (b : Buf), bufSize c total b ≠ 0 → ∀ (m : Mem)
    (k : Nat) (x : Option Image), l[k]? = some x → ∀ (j : Nat), j < unit b * size →
    runStores m (litStores c total size ofs l) b (unit b * (ofs + k * size) + j) =
      (match x with
        | some i => (i.bytes b).getD j 0
        | none => m b (unit b * (ofs + k * size) + j)) := by
  intro l
  induction l with
  | nil => intro ofs _ b _ m k x h; simp at h
  | cons y l ih =>
    intro ofs hl b hb m k x hx j hj
    rw [litStores, runStores_append]
    have hl' : ∀ i, some i ∈ l → i.Sized size := fun i hi => hl i (by simp [hi])
    cases k with
    | zero =>
      simp only [List.getElem?_cons_zero, Option.some.injEq] at hx
      subst hx
      obtain ⟨r1, r2⟩ := sampleOf_unit b ofs 0 j size 1 hj (by omega)
      rw [runStores_other]
      · cases y with
        | none => rfl
        | some i =>
          have hi : i.Sized size := hl i (by simp)
          have hj' : j < (i.bytes b).length := by rw [bytes_length hi]; exact hj
          simp only [litSlot]
          rw [run_stores (imgs := [i]) (by simpa using hi) b hb m 0 (by simp) j (by simpa using hj')]
          simp only [List.getElem_cons_zero]
          rw [List.getD_eq_getElem?_getD, List.getElem?_eq_getElem hj', Option.getD_some]
      · intro s hs hsa
        have := litStores_mem hl' s hs
        rw [hsa.1, hsa.2] at this
        omega
    | succ k =>
      rw [List.getElem?_cons_succ] at hx
      have e : ofs + (k + 1) * size = ofs + size + k * size := by rw [Nat.succ_mul]; omega
      have := ih (ofs := ofs + size) hl' b hb (runStores m (litSlot c total size ofs y)) k x hx j hj
      rw [e, this]
      cases x with
      | some i => rfl
      | none =>
        simp only
        cases y with
        | none => rfl
        | some i =>
          apply runStores_other
          intro s hs hsa
          have hm := stores_mem (imgs := [i]) (by simpa using hl i (by simp)) s hs
          rw [hsa.1, hsa.2] at hm
          have hk := List.getElem?_eq_some_iff.1 hx
          obtain ⟨r1, r2⟩ := sampleOf_unit b (ofs + size) k j size (k + 1) hj (by omega)
          simp at hm
          omega

theorem litImage_sized {fs : List Face} (hz : Sized fs) {f : Face} (hf : f ∈ fs) {s : Surf}
    (hs : f.surf = some s) {st : Nat} {i : Image} (h : litImage s st = some i) :
    i.Sized s.size := by
  unfold litImage at h
  rw [Option.map_eq_some_iff] at h
  obtain ⟨l, hl, rfl⟩ := h
  exact ((hz f hf s hs).2 l (List.mem_of_find?_eq_some hl)).1

theorem litMap_sized {fs : List Face} (hz : Sized fs) {f : Face} (hf : f ∈ fs) {s : Surf}
    (hs : f.surf = some s) : ∀ i, some i ∈ (litStyles f.old).map (litImage s) →
      i.Sized s.size := by
  intro i hi
  obtain ⟨st, _, hst⟩ := List.mem_map.1 hi
  exact litImage_sized hz hf hs hst

/-- What a face stores. -/
theorem litFace_ok {c : Cfg} {total : Nat} {f : Face} {s : Surf} {p : List Store}
    (hs : f.surf = some s) (h : litFace c total f = .ok p) :
    f.old.lightofs = -1 ∧ p = [] ∨ ∃ v : Nat, f.old.lightofs = v ∧
      v + (litStyles f.old).length * s.size ≤ total ∧
      p = litStores c total s.size v ((litStyles f.old).map (litImage s)) := by
  unfold litFace at h
  rw [hs] at h
  simp only at h
  by_cases h1 : f.old.lightofs = -1
  · rw [if_pos h1, Outcome.ok.injEq] at h
    exact Or.inl ⟨h1, h.symm⟩
  · rw [if_neg h1] at h
    by_cases h2 : f.old.lightofs < 0
    · rw [if_pos h2] at h; simp at h
    · rw [if_neg h2] at h
      obtain ⟨_, _, h⟩ := Outcome.bind_eq_ok.1 h
      split at h
      · simp at h
      · exact Or.inr ⟨f.old.lightofs.toNat, by omega, by omega, (checked_ok h).1⟩

theorem litFace_none {c : Cfg} {total : Nat} {f : Face} {p : List Store}
    (hs : f.surf = none) (h : litFace c total f = .ok p) : p = [] := by
  unfold litFace at h
  rw [hs] at h
  simpa using h.symm

/-- The final contents at an address of a face are those that the face itself stores. -/
theorem lit_final {c : Cfg} {total : Nat} {fs : List Face} {ps : List (List Store)}
    {t : List (Nat × Store)} (he : each (litFace c total) fs = .ok ps) (ht : Interleaves ps t)
    (hz : Sized fs) (ha : LitApart fs) {i : Nat} {f : Face} {s : Surf} (hf : fs[i]? = some f)
    (hs : f.surf = some s) {v : Nat} (hv : f.old.lightofs = v) (m : Mem) (b : Buf) (a : Nat)
    (h1 : v ≤ sampleOf b a) (h2 : sampleOf b a < v + (litStyles f.old).length * s.size) :
    runStores m (t.map Prod.snd) b a =
      runStores m (litStores c total s.size v ((litStyles f.old).map (litImage s))) b a := by
  obtain ⟨p, hp, hfp⟩ := each_get he hf
  have hpe : p = litStores c total s.size v ((litStyles f.old).map (litImage s)) := by
    rcases litFace_ok hs hfp with ⟨h, _⟩ | ⟨v', h, _, h'⟩
    · omega
    · have : v' = v := by omega
      subst this; exact h'
  rw [runStores_task ht m b a i, List.getD_eq_getElem?_getD, hp, Option.getD_some, hpe]
  intro j q hji hq x hx hxa
  have hjl : j < fs.length := by
    have := (List.getElem?_eq_some_iff.1 hq).1
    rwa [each_length he] at this
  have hf' : fs[j]? = some fs[j] := List.getElem?_eq_getElem hjl
  obtain ⟨q', hq', hfq⟩ := each_get he hf'
  rw [hq, Option.some.injEq] at hq'
  subst hq'
  cases hs' : fs[j].surf with
  | none => rw [litFace_none hs' hfq] at hx; simp at hx
  | some s' =>
    rcases litFace_ok hs' hfq with ⟨_, h'⟩ | ⟨w, hw, _, h'⟩
    · rw [h'] at hx; simp at hx
    · rw [h'] at hx
      have hm := litStores_mem (litMap_sized hz (List.getElem_mem hjl) hs') x hx
      rw [hxa.1, hxa.2, List.length_map] at hm
      have := ha i j f fs[j] s s' (fun h => hji h.symm) hf hf' hs hs' (by omega) (by omega)
      rw [hv, hw] at this
      norm_cast at this
      omega

/-- **C120.** For every execution with `-litonly`, the colours of each lightmap stand in the
.lit data at the place that the BSP file has for the greyscale lightmap of the same face and
style, and so do the directions in the .lux data.  Where no light of the style was computed,
the data is black. -/
theorem litonly_stored {c : Cfg} {total : Nat} {fs : List Face} {m : Mem}
    (hrun : LitRun c total fs (.ok m)) (hz : Sized fs) (ha : LitApart fs) {i : Nat} {f : Face}
    {s : Surf} (hf : fs[i]? = some f) (hs : f.surf = some s) {v : Nat}
    (hv : f.old.lightofs = v) {k st : Nat} (hk : (litStyles f.old)[k]? = some st) :
    (c.lit = true → ∀ j, j < 3 * s.size → m .lit (3 * (v + k * s.size) + j) =
      (match litImage s st with
        | some x => x.rgb.getD j 0
        | none => 0)) ∧
    (c.lux = true → ∀ j, j < 3 * s.size → m .lux (3 * (v + k * s.size) + j) =
      (match litImage s st with
        | some x => x.dir.getD j 0
        | none => 0)) := by
  cases hrun with
  | done ps t h0 hr he ht =>
    have hfm : f ∈ fs := List.mem_of_getElem? hf
    have hkl := (List.getElem?_eq_some_iff.1 hk).1
    have hk' : ((litStyles f.old).map (litImage s))[k]? = some (litImage s st) := by
      rw [List.getElem?_map, hk]; rfl
    have key : ∀ b : Buf, bufSize c total b ≠ 0 → ∀ j, j < unit b * s.size →
        runStores (fun _ _ => 0) (t.map Prod.snd) b (unit b * (v + k * s.size) + j) =
        (match litImage s st with
          | some x => (x.bytes b).getD j 0
          | none => 0) := by
      intro b hb j hj
      obtain ⟨r1, r2⟩ := sampleOf_unit b v k j s.size _ hj hkl
      rw [lit_final he ht hz ha hf hs hv _ b _ r1 r2,
        run_litStores (litMap_sized hz hfm hs) b hb _ k _ hk' j hj]
    constructor
    · intro hl
      exact key .lit (bufSize_pos h0 (Or.inr hl))
    · intro hl
      exact key .lux (bufSize_pos h0 hl)

/-- **C120.** If the places of all faces are within the lightmap data of the BSP file, no
execution fails or has undefined behaviour. -/
theorem litonly_succeeds {c : Cfg} {total : Nat} {fs : List Face} {x : Outcome Mem}
    (hrun : LitRun c total fs x) (h0 : total ≠ 0) (hr : c.rgb = false) (hz : Sized fs)
    (hi : LitInside total fs) (h3 : total * 3 ≤ INT_MAX) : ∃ m, x = .ok m := by
  obtain ⟨ps, hps⟩ : ∃ ps, each (litFace c total) fs = .ok ps := by
    refine each_exists fun f hf => ?_
    unfold litFace
    cases hs : f.surf with
    | none => exact ⟨_, rfl⟩
    | some s =>
      simp only
      by_cases h1 : f.old.lightofs = -1
      · rw [if_pos h1]; exact ⟨_, rfl⟩
      · rw [if_neg h1]
        rcases hi f hf s hs with h | ⟨h, hle⟩
        · exact absurd h h1
        · rw [if_neg (by omega)]
          obtain ⟨v, hv⟩ : ∃ v : Nat, f.old.lightofs = v := ⟨f.old.lightofs.toNat, by omega⟩
          rw [hv] at hle ⊢
          norm_cast at hle
          have htr : tripled c total v = .ok () := by
            unfold tripled
            rw [if_neg]
            rintro ⟨_, h⟩
            omega
          simp only [Int.toNat_natCast, htr, Outcome.ok_bind]
          rw [if_neg (by omega)]
          unfold checked
          rw [if_pos]
          · exact ⟨_, rfl⟩
          rw [List.all_eq_true]
          intro y hy
          have := litStores_mem (litMap_sized hz hf hs) y hy
          rw [List.length_map] at this
          simp only [decide_eq_true_eq]
          cases hb : y.buf <;> rw [hb] at this <;> simp only [bufSize, sampleOf] at this ⊢
          · split at this
            · rw [if_pos (by assumption)]; omega
            · simp at this
          · split at this
            · rw [if_pos (by assumption)]; omega
            · simp at this
          · split at this
            · rw [if_pos (by assumption)]; omega
            · simp at this
  cases hrun with
  | refused h =>
    rcases h with h | h
    · exact absurd h h0
    · rw [hr] at h; simp at h
  | failed _ _ h => rw [hps] at h; simp at h
  | undef _ _ h => rw [hps] at h; simp at h
  | done ps t => exact ⟨_, rfl⟩

theorem litRun_exists (c : Cfg) (total : Nat) (fs : List Face) : ∃ x, LitRun c total fs x := by
  by_cases h0 : total = 0
  · exact ⟨_, .refused (Or.inl h0)⟩
  · cases hr : c.rgb with
    | true => exact ⟨_, .refused (Or.inr hr)⟩
    | false =>
      cases he : each (litFace c total) fs with
      | error => exact ⟨_, .failed h0 hr he⟩
      | ub => exact ⟨_, .undef h0 hr he⟩
      | ok ps => exact ⟨_, .done ps _ h0 hr he (interleaves_sequential _)⟩

/-! ### After a normal run -/

/-- The faces as they are read from the BSP file that a run of `light` has written. -/
def relit (fs : List Face) (outs : List Out) : List Face :=
  List.zipWith (fun f o => { f with old := o.face }) fs outs

theorem relit_get {fs : List Face} {outs : List Out} {i : Nat} {f : Face}
    (h : (relit fs outs)[i]? = some f) :
    ∃ g o, fs[i]? = some g ∧ outs[i]? = some o ∧ f = { g with old := o.face } := by
  unfold relit at h
  rw [List.getElem?_zipWith] at h
  cases hg : fs[i]? with
  | none => rw [hg] at h; simp at h
  | some g =>
    cases ho : outs[i]? with
    | none => rw [hg, ho] at h; simp at h
    | some o =>
      rw [hg, ho] at h
      simp only [Option.some.injEq] at h
      exact ⟨g, o, rfl, rfl, h.symm⟩

theorem takeWhile_pad {l : List Nat} {x n : Nat} (h : ∀ y ∈ l, y ≠ x) :
    (l ++ List.replicate n x).takeWhile (fun y => decide (y ≠ x)) = l := by
  induction l with
  | nil => cases n <;> simp [List.replicate_succ]
  | cons y l ih =>
    have := h y (by simp)
    rw [List.cons_append, List.takeWhile_cons_of_pos (by simpa using this),
      ih (fun z hz => h z (by simp [hz]))]

theorem litStyles_face {l : List Lightmap} (hl : l.length ≤ 4) (h : ∀ x ∈ l, x.style ≠ 255)
    (v : Int) : litStyles ⟨v, faceStyles l⟩ = l.map Lightmap.style := by
  unfold litStyles faceStyles styleArray MAXLIGHTMAPS INVALID_LIGHTSTYLE_OLD
  have h1 : (l.map Lightmap.style).take 4 = l.map Lightmap.style := by
    apply List.take_of_length_le; simpa using hl
  have h2 : ((l.map Lightmap.style).take 4 ++
      List.replicate (4 - (l.map Lightmap.style).length) 255).length ≤ 4 := by
    rw [h1]; simp; omega
  simp only
  rw [List.take_of_length_le h2, h1]
  apply takeWhile_pad
  intro y hy
  obtain ⟨x, hx, rfl⟩ := List.mem_map.1 hy
  exact h x hx

/-- **C120.** A run with `-litonly` on a BSP file that `light` has written without it gives the
same .lit data for every lightmap as the first run, if the same light is computed. -/
theorem litonly_after_light {c : Cfg} {fs : List Face} {r : Result} {x : Outcome Mem}
    (hrun : Run c fs (.ok r)) (hz : Sized fs) (ht : Tame c fs)
    (hd : c.decoupled = false) (hsup : c.sup = false) (hrgb : c.rgb = false) (hq : c.q2 = false)
    (hlit : c.lit = true) (h0 : r.total ≠ 0) (h3 : r.total * 3 ≤ INT_MAX)
    (hst : ∀ f ∈ fs, ∀ s, f.surf = some s → (s.lightmaps.map Lightmap.style).Nodup ∧
      ∀ l ∈ s.lightmaps, l.style ≠ 255)
    (hlr : LitRun c r.total (relit fs r.outs) x) :
    ∃ m, x = .ok m ∧ ∀ (i : Nat) (f : Face) (s : Surf) (o : Out), fs[i]? = some f →
      f.surf = some s → r.outs[i]? = some o → ∀ (k : Nat), k < (faceKept c f s).length →
      ∀ j, j < 3 * s.size →
        m .lit (3 * (o.face.lightofs.toNat + k * s.size) + j) =
          r.mem .lit (3 * (o.face.lightofs.toNat + k * s.size) + j) := by
  have hmode : ∀ f, mode c f = .plain := by intro f; simp [mode, hd, hsup]
  have hlen : r.outs.length = fs.length := by
    cases hrun with
    | done t1 g total ps t2 hok h1 hgr hp h2 => simpa using (progs_spec _ _ _ hp).1
  -- the record of every face
  have hrec : ∀ (i : Nat) (f : Face) (s : Surf) (o : Out), fs[i]? = some f → f.surf = some s →
      r.outs[i]? = some o →
      (faceKept c f s = [] ∧ o.face.lightofs = -1) ∨
      (faceKept c f s ≠ [] ∧ ∃ v : Nat, o.face = ⟨v, faceStyles (faceKept c f s)⟩ ∧
        Stored c r v s.size ((faceKept c f s).map Lightmap.img)) := by
    intro i f s o hf hs ho
    by_cases hk : faceKept c f s = []
    · refine Or.inl ⟨hk, ?_⟩
      cases hrun with
      | done t1 g total ps t2 hok h1 hgr hp h2 =>
        obtain ⟨p, hpi, hfp⟩ := (progs_spec _ _ _ hp).2 i f hf
        simp only [List.getElem?_map, hpi, Option.map_some, Option.some.injEq] at ho
        unfold faceProg at hfp
        rw [hs] at hfp
        simp only [hmode f, hk, List.isEmpty_nil, if_true, Outcome.ok.injEq] at hfp
        rw [← ho, ← hfp]
        simp [initOut, hsup]
    · refine Or.inr ⟨hk, ?_⟩
      obtain ⟨o', v, ho', hv, hsd⟩ := lightmaps_stored hrun hz ht hf hs hk
      rw [ho, Option.some.injEq] at ho'
      subst ho'
      refine ⟨v, ?_, hsd⟩
      have hofs : o.face.lightofs = v := by
        simpa [ownOffset, hmode f, fileOffset, hrgb] using hv
      have hsty : o.face.styles = faceStyles (faceKept c f s) := by
        cases hrun with
        | done t1 g total ps t2 hok h1 hgr hp h2 =>
          obtain ⟨p, hpi, hfp⟩ := (progs_spec _ _ _ hp).2 i f hf
          simp only [List.getElem?_map, hpi, Option.map_some, Option.some.injEq] at ho
          have hne : (faceKept c f s).isEmpty = false := by simpa using hk
          unfold faceProg at hfp
          rw [hs] at hfp
          simp only [hmode f, hne, Bool.false_eq_true, if_false] at hfp
          obtain ⟨⟨a, b⟩, _, hfp⟩ := Outcome.bind_eq_ok.1 hfp
          simp only [Outcome.pure_eq, Outcome.ok.injEq] at hfp
          rw [← ho, ← hfp]
      cases hface : o.face with
      | mk a b => rw [hface] at hofs hsty; simp_all
  have hkept : ∀ (f : Face) (s : Surf), f ∈ fs → f.surf = some s →
      (faceKept c f s).length ≤ 4 ∧ ∀ l ∈ faceKept c f s, l ∈ s.lightmaps ∧ l.style ≠ 255 := by
    intro f s hf hs
    have hk : faceKept c f s = kept c false s := by simp [faceKept, hmode f]
    rw [hk]
    refine ⟨by simpa using (kept_limit c false s).1, fun l hl => ?_⟩
    have := (sortable_iff hq false s l).1 (kept_mem hl)
    exact ⟨this.1, (hst f hf s hs).2 l this.1⟩
  have hstyles : ∀ (i : Nat) (f : Face) (s : Surf) (o : Out), fs[i]? = some f →
      f.surf = some s → r.outs[i]? = some o → faceKept c f s ≠ [] →
      litStyles o.face = (faceKept c f s).map Lightmap.style := by
    intro i f s o hf hs ho hk
    obtain ⟨h4, hl⟩ := hkept f s (List.mem_of_getElem? hf) hs
    rcases hrec i f s o hf hs ho with ⟨h, _⟩ | ⟨_, v, hface, _⟩
    · exact absurd h hk
    · rw [hface]
      exact litStyles_face h4 (fun l h => (hl l h).2) v
  have hz' : Sized (relit fs r.outs) := by
    intro f hf s hs
    obtain ⟨i, hi, rfl⟩ := List.getElem_of_mem hf
    obtain ⟨g, o, hg, _, hfe⟩ := relit_get (List.getElem?_eq_getElem hi)
    rw [hfe] at hs
    exact hz g (List.mem_of_getElem? hg) s hs
  have hin : LitInside r.total (relit fs r.outs) := by
    intro f hf s hs
    obtain ⟨i, hi, rfl⟩ := List.getElem_of_mem hf
    obtain ⟨g, o, hg, ho, hfe⟩ := relit_get (List.getElem?_eq_getElem hi)
    rw [hfe] at hs ⊢
    simp only at hs ⊢
    rcases hrec i g s o hg hs ho with ⟨_, h⟩ | ⟨hk, v, hface, hsd⟩
    · exact Or.inl h
    · right
      rw [hstyles i g s o hg hs ho hk, hface]
      have := hsd.inside
      rw [List.length_map] at this ⊢
      refine ⟨by simp, ?_⟩
      push_cast
      exact_mod_cast this
  have hap : LitApart (relit fs r.outs) := by
    intro i j f f' s s' hij hf hf' hs hs' h1 h1'
    obtain ⟨g, o, hg, ho, rfl⟩ := relit_get hf
    obtain ⟨g', o', hg', ho', rfl⟩ := relit_get hf'
    simp only at hs hs' h1 h1' ⊢
    rcases hrec i g s o hg hs ho with ⟨_, h⟩ | ⟨hk, _⟩
    · exact absurd h h1
    rcases hrec j g' s' o' hg' hs' ho' with ⟨_, h⟩ | ⟨hk', _⟩
    · exact absurd h h1'
    have := lightmaps_apart hrun hij hg hs hk hg' hs' hk' ho ho'
    simp only [ownOffset, hmode, fileOffset, hrgb, Bool.false_eq_true, if_false] at this
    rw [hstyles i g s o hg hs ho hk, hstyles j g' s' o' hg' hs' ho' hk', List.length_map,
      List.length_map]
    push_cast at this
    exact this
  obtain ⟨m, rfl⟩ := litonly_succeeds hlr h0 hrgb hz' hin h3
  refine ⟨m, rfl, ?_⟩
  intro i f s o hf hs ho k hk j hj
  have hkne : faceKept c f s ≠ [] := by
    intro h; rw [h] at hk; simp at hk
  have hrl : (relit fs r.outs)[i]? = some { f with old := o.face } := by
    unfold relit
    rw [List.getElem?_zipWith, hf, ho]
  rcases hrec i f s o hf hs ho with ⟨h, _⟩ | ⟨_, v, hface, hsd⟩
  · exact absurd h hkne
  have hsl := hstyles i f s o hf hs ho hkne
  obtain ⟨h4, hl⟩ := hkept f s (List.mem_of_getElem? hf) hs
  have hlm := (hl _ (List.getElem_mem hk)).1
  have h := (litonly_stored hlr hz' hap hrl hs (v := v) (by rw [hface]) (k := k)
    (st := (faceKept c f s)[k].style) (by
      show (litStyles o.face)[k]? = _
      rw [hsl, List.getElem?_map, List.getElem?_eq_getElem hk]; rfl)).1 hlit j hj
  have himg : litImage s (faceKept c f s)[k].style = some (faceKept c f s)[k].img := by
    unfold litImage
    have hnd := (hst f (List.mem_of_getElem? hf) s hs).1
    cases hfd : s.lightmaps.find? (fun l => decide (l.style = (faceKept c f s)[k].style)) with
    | none =>
      rw [List.find?_eq_none] at hfd
      have := hfd _ hlm
      simp at this
    | some y =>
      have h1 := List.find?_some hfd
      have h2 := List.mem_of_find?_eq_some hfd
      simp only [decide_eq_true_eq] at h1
      rw [List.inj_on_of_nodup_map hnd h2 hlm h1]
      rfl
  have hsz := (kept_sized (c := c) (hz f (List.mem_of_getElem? hf) s hs).1
    (hz f (List.mem_of_getElem? hf) s hs).2 (List.getElem_mem hk)).1
  have hjl : j < (faceKept c f s)[k].img.rgb.length := by rw [hsz.2.1]; exact hj
  have hr := hsd.lit (Or.inr hlit) k (by simpa using hk) j (by simpa using hjl)
  rw [himg] at h
  simp only at h
  rw [hface]
  simp only [Int.toNat_natCast]
  rw [h, hr, List.getD_eq_getElem?_getD, List.getElem?_eq_getElem hjl, Option.getD_some]
  simp

end Verif.Light
