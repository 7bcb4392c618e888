import Verif.TexFlags.FileLemmas

/-!
C136 and C137: surface flags on their way from qbsp to light.
-/

namespace Verif.TexFlags

open Verif
open Verif.EntData (Str)
open Verif.Emit (XOpts XSt TexInfo TexKey exportTexinfos)

variable {V : Type} [DecidableEq V]

theorem arrive_of (infos : Infos) (n : Nat) (hn : n ≤ 2 ^ 64)
    (hlt : ∀ t ∈ infos, ∀ i, t.2 = some i → i < n)
    (hnd : ((infos.filterMap chosen).map Prod.fst).Nodup)
    (hs : ∀ t ∈ infos, t.2 ≠ none → Typed t.1 ∧ Sendable t.1) (old : Option File) :
    (write old false infos).2 = false ∧ ∃ fl, load n (write old false infos).1 = .ok fl ∧ fl.length = n ∧
      ∀ t ∈ infos, ∀ i, t.2 = some i → (∀ u ∈ infos, u.2 = some i → u = t) →
        ∃ g, fl[i]? = some g ∧ Arrives t.1 g := by
  by_cases hany : (infos.any fun t => t.1.needsWrite) = true
  · obtain ⟨es, h1, h2⟩ := toDoc_shape infos hnd
    have hmem : ∀ e ∈ es, (e.2, some e.1) ∈ infos ∧ e.2.needsWrite = true := by
      intro e he
      have := h2.mem_iff.mp he
      rw [List.mem_filterMap] at this
      obtain ⟨t, ht, hc⟩ := this
      obtain ⟨f, num⟩ := t
      cases num with
      | none => simp [chosen] at hc
      | some i =>
        simp only [chosen] at hc
        by_cases hw : f.needsWrite = true
        · rw [if_pos hw] at hc
          cases hc
          exact ⟨ht, hw⟩
        · rw [if_neg hw] at hc; cases hc
    have hnd' : (es.map Prod.fst).Nodup := (h2.map Prod.fst).nodup_iff.mpr hnd
    have hok : ∀ e ∈ es, Typed e.2 ∧ Sendable e.2 := fun e he => hs _ (hmem e he).1 (by simp)
    have htext : (toDoc infos).text = some (es.map textOf) := by
      rw [h1]
      exact doc_text es fun e he => (hok e he).2.surflightTargetname
    have hwrite : write old false infos = (some (.doc (es.map textOf)), false) := by
      simp only [write, hany, Bool.not_true, Bool.or_false, Bool.false_eq_true, if_false, htext]
    have hload := loadDoc_entries n hn es (List.replicate n {}) (by simp) hnd' (by
      intro e he
      have hl := hlt _ (hmem e he).1 _ rfl
      refine ⟨hl, ?_, hok e he⟩
      rw [List.getElem?_replicate, if_pos hl])
    rw [hwrite]
    refine ⟨rfl, _, hload, by simp [apply_length], ?_⟩
    intro t ht i hi huniq
    have hl := hlt t ht i hi
    by_cases hw : t.1.needsWrite = true
    · have he : (i, t.1) ∈ es := by
        rw [h2.mem_iff, List.mem_filterMap]
        exact ⟨t, ht, by simp [chosen, hi, hw]⟩
      exact ⟨_, apply_mem es _ hnd' (i, t.1) he (by simpa using hl), arrived_arrives _⟩
    · have hnot : i ∉ es.map Prod.fst := by
        intro hc
        obtain ⟨e, he, rfl⟩ := List.mem_map.mp hc
        have := huniq _ (hmem e he).1 rfl
        apply hw
        rw [← this]
        exact (hmem e he).2
      refine ⟨{}, ?_, default_arrives (by simpa using hw)⟩
      rw [apply_other _ _ _ hnot, List.getElem?_replicate, if_pos hl]
  · have hwrite : write old false infos = (none, false) := by
      have : (infos.any fun t => t.1.needsWrite) = false := by simpa using hany
      simp only [write, this, Bool.not_false, Bool.true_or, if_true]
      cases old <;> rfl
    rw [hwrite]
    refine ⟨rfl, List.replicate n {}, rfl, by simp, ?_⟩
    intro t ht i hi _
    refine ⟨{}, by rw [List.getElem?_replicate, if_pos (hlt t ht i hi)], default_arrives ?_⟩
    by_contra hne
    apply hany
    rw [List.any_eq_true]
    exact ⟨t, ht, by simpa using hne⟩

theorem chosen_nodup {o : XOpts Flags} {s : XSt V Flags} (h : Emit.Spec.Numbered o s) :
    (((infosOf s.infos).filterMap chosen).map Prod.fst).Nodup := by
  have key : ∀ l : List (TexInfo V Flags),
      (∀ (n n' : Nat) t t' i, l[n]? = some t → l[n']? = some t' → t.outputnum = some i → t'.outputnum = some i →
        n = n') → (((infosOf l).filterMap chosen).map Prod.fst).Nodup := by
    intro l
    induction l with
    | nil => intro _; exact List.nodup_nil
    | cons a l ih =>
      intro hinj
      have ih := ih fun n n' t t' i h1 h2 h3 h4 => by
        have := hinj (n + 1) (n' + 1) t t' i h1 h2 h3 h4
        omega
      have hcons : infosOf (a :: l) = (a.key.flags, a.outputnum) :: infosOf l := rfl
      rw [hcons]
      cases hnum : a.outputnum with
      | none =>
        rw [List.filterMap_cons_none rfl]
        exact ih
      | some i =>
        by_cases hw : a.key.flags.needsWrite = true
        · have hc : chosen (a.key.flags, some i) = some (i, a.key.flags) := by simp [chosen, hw]
          rw [List.filterMap_cons_some hc, List.map_cons, List.nodup_cons]
          refine ⟨?_, ih⟩
          intro hmem
          simp only [List.mem_map, List.mem_filterMap, infosOf] at hmem
          obtain ⟨e, ⟨t, ⟨b, hb, rfl⟩, hch⟩, he⟩ := hmem
          obtain ⟨m, hm⟩ := List.mem_iff_getElem?.mp hb
          have hbi : b.outputnum = some i := by
            cases hbn : b.outputnum with
            | none => rw [hbn] at hch; cases hch
            | some j =>
              rw [hbn] at hch
              simp only [chosen] at hch
              split at hch
              · cases hch; rw [← he]
              · cases hch
          have := hinj 0 (m + 1) a b i rfl hm hnum hbi
          omega
        · have hc : chosen (a.key.flags, some i) = none := by simp [chosen, hw]
          rw [List.filterMap_cons_none hc]
          exact ih
  exact key s.infos h.inj

/-- C136, as it should be: whatever flags qbsp has given the texinfos, once it has numbered the texinfos of all faces,
it writes the file without an exception, and light, which finds as many texinfos in the BSP file, then has the same
flags for each of them. -/
def FlagsArrive : Prop := ∀ (o : XOpts Flags) (l : List Nat) (s s' : XSt Nat Flags) (rs : List (Option Nat))
    (old : Option File),
  (∀ (n : Nat) t, s.infos[n]? = some t → t.outputnum = none) → s.out = [] →
  exportTexinfos o l s = some (.ok (rs, s')) → s'.out.length ≤ 2 ^ 64 → (∀ t ∈ s'.infos, Typed t.key.flags) →
    (write old false (infosOf s'.infos)).2 = false ∧
    ∃ fl, load s'.out.length (write old false (infosOf s'.infos)).1 = .ok fl ∧ fl.length = s'.out.length ∧
      ∀ (i : Nat) d, s'.out[i]? = some d → ∃ g, fl[i]? = some g ∧ Arrives d.flags g

/-- C136, for flags with finite numbers, names in UTF-8 and no mark against phong shading: every texinfo in the BSP file
has in light the flags it had in qbsp, whatever file an earlier run has left. -/
theorem flags_arrive_partial (o : XOpts Flags) (l : List Nat) (s s' : XSt V Flags) (rs : List (Option Nat))
    (old : Option File) (hfresh : ∀ (n : Nat) t, s.infos[n]? = some t → t.outputnum = none) (hempty : s.out = [])
    (h : exportTexinfos o l s = some (.ok (rs, s'))) (hsize : s'.out.length ≤ 2 ^ 64)
    (htyped : ∀ t ∈ s'.infos, Typed t.key.flags) (hsend : ∀ t ∈ s'.infos, Sendable t.key.flags) :
    (write old false (infosOf s'.infos)).2 = false ∧
    ∃ fl, load s'.out.length (write old false (infosOf s'.infos)).1 = .ok fl ∧ fl.length = s'.out.length ∧
      ∀ (i : Nat) d, s'.out[i]? = some d → ∃ g, fl[i]? = some g ∧ Arrives d.flags g := by
  obtain ⟨hnum, _⟩ := Emit.texinfos_exported hfresh hempty h
  have hlt : ∀ t ∈ infosOf s'.infos, ∀ i, t.2 = some i → i < s'.out.length := by
    intro t ht i hi
    obtain ⟨b, hb, rfl⟩ := List.mem_map.mp ht
    obtain ⟨m, hm⟩ := List.mem_iff_getElem?.mp hb
    obtain ⟨_, d, hd, _⟩ := hnum.record m b i hm hi
    exact (List.getElem?_eq_some_iff.mp hd).1
  obtain ⟨h1, fl, h2, h3, h4⟩ := arrive_of (infosOf s'.infos) s'.out.length hsize hlt (chosen_nodup hnum) (by
    intro t ht _
    obtain ⟨b, hb, rfl⟩ := List.mem_map.mp ht
    exact ⟨htyped b hb, hsend b hb⟩) old
  refine ⟨h1, fl, h2, h3, ?_⟩
  intro i d hd
  obtain ⟨n, t, ht, hti⟩ := hnum.onto i (List.getElem?_eq_some_iff.mp hd).1
  have hmem : (t.key.flags, t.outputnum) ∈ infosOf s'.infos :=
    List.mem_map.mpr ⟨t, List.mem_iff_getElem?.mpr ⟨n, ht⟩, rfl⟩
  obtain ⟨g, hg, harr⟩ := h4 _ hmem i hti (by
    intro u hu hui
    obtain ⟨b, hb, rfl⟩ := List.mem_map.mp hu
    obtain ⟨m, hm⟩ := List.mem_iff_getElem?.mp hb
    have := hnum.inj m n b t i hm ht hui hti
    subst this
    rw [ht] at hm
    cases hm
    rfl)
  obtain ⟨_, d', hd', hrec⟩ := hnum.record n t i ht hti
  rw [hd] at hd'
  cases hd'
  exact ⟨g, hg, by rw [hrec.2.1]; exact harr⟩

/-- C136: what an earlier run has left has no effect, and with `-noextendedsurfflags` no file remains and light has the
default flags. -/
theorem flags_off (old : Option File) (off : Bool) (infos : Infos) (n : Nat) :
    write old off infos = write none off infos ∧ write old true infos = (none, false) ∧
      load n (write old true infos).1 = .ok (List.replicate n {}) := by
  have h : ∀ off, write old off infos = write none off infos := by
    intro off
    cases old <;> rfl
  have h2 : write old true infos = (none, false) := by rw [h]; simp [write]
  exact ⟨h off, h2, by rw [h2]; rfl⟩

/-! ### Where it fails -/

/-- The options for the examples: all texinfos are written. -/
def opts : XOpts Flags := ⟨fun _ => false, fun _ => true, [("brick".toList, 0)]⟩

/-- A map with one texinfo. -/
def single (f : Flags) : XSt Nat Flags := ⟨[⟨⟨0, 0, f, 0, none⟩, none⟩], []⟩

/-- The same once it has its number. -/
def singleOut (f : Flags) : XSt Nat Flags :=
  ⟨[⟨⟨0, 0, f, 0, none⟩, some 0⟩], [⟨0, f, 0, 0, "brick".toList, none⟩]⟩

theorem single_export (f : Flags) : exportTexinfos opts [0] (single f) = some (.ok ([some 0], singleOut f)) := rfl

theorem single_typed {f : Flags} (h : Typed f) : ∀ t ∈ (singleOut f).infos, Typed t.key.flags := by
  intro t ht
  simp only [singleOut, List.mem_singleton] at ht
  subst ht
  exact h

theorem arrive_single (h : FlagsArrive) {f : Flags} (ht : Typed f) :
    (write none false [(f, some 0)]).2 = false ∧
      ∃ g, load 1 (write none false [(f, some 0)]).1 = .ok [g] ∧ Arrives f g := by
  obtain ⟨h1, fl, h2, h3, h4⟩ := h opts [0] (single f) (singleOut f) [some 0] none (by
    intro n t hn
    cases n with
    | zero => simp only [single, List.getElem?_cons_zero, Option.some.injEq] at hn; subst hn; rfl
    | succ n => simp [single] at hn) rfl (single_export f) (by simp [singleOut]) (single_typed ht)
  obtain ⟨g, hg, ha⟩ := h4 0 _ rfl
  refine ⟨h1, g, ?_, ha⟩
  have : fl = [g] := by
    cases fl with
    | nil => simp at hg
    | cons a l =>
      cases l with
      | nil => simp only [List.getElem?_cons_zero, Option.some.injEq] at hg; rw [hg]
      | cons b l => simp [singleOut] at h3
  rw [← this]
  exact h2

/-- The file of one texinfo with the number 0. -/
theorem write_single {f : Flags} (h : f.needsWrite = true) : write none false [(f, some 0)] =
    match Obj.text (toObj f) with
    | some o => (some (.doc [([48], o)]), false)
    | none => (some .broken, true) := by
  have hz : Styles.decimal 0 = [48] := by decide +kernel
  have hd : toDoc [(f, some 0)] = [([48], toObj f)] := by
    simp [toDoc, List.insertionSort, List.orderedInsert, addInfo, h, Doc.put, hz]
  have hany : ([(f, some 0)] : Infos).any (fun t => t.1.needsWrite) = true := by simp [h]
  simp only [write, hany, hd, Doc.text, List.mapM_cons, List.mapM_nil]
  cases Obj.text (toObj f) <;> rfl

/-- C136, first negation, and what happens: a mark against phong shading arrives as a mark against expansion. -/
theorem no_phong_lost : ¬ FlagsArrive ∧
    load 1 (write none false [({ noPhong := true }, some 0)]).1 = .ok [{ noExpand := true }] := by
  have hl : load 1 (write none false [({ noPhong := true }, some 0)]).1 = .ok [{ noExpand := true }] := by
    rw [write_single (by decide)]
    decide +kernel
  refine ⟨?_, hl⟩
  intro h
  obtain ⟨_, g, hg, ha⟩ := arrive_single h (f := { noPhong := true }) (by
    constructor <;> simp [Int32])
  rw [hl] at hg
  cases hg
  have := ha.noPhong
  revert this
  decide

/-- Infinity, which `atof` gives for `"_minlight" "inf"`. -/
def inf : F32 := 0x7f800000#32

/-- C136, second negation: an infinite number makes light stop with an exception. -/
theorem infinite_stops_light : ¬ FlagsArrive ∧
    load 1 (write none false [({ minlight := some inf }, some 0)]).1 = .error := by
  have hl : load 1 (write none false [({ minlight := some inf }, some 0)]).1 = .error := by
    rw [write_single (by decide)]
    decide +kernel
  refine ⟨?_, hl⟩
  intro h
  obtain ⟨_, g, hg, ha⟩ := arrive_single h (f := { minlight := some inf }) (by
    constructor <;> simp [Int32])
  rw [hl] at hg
  cases hg

/-- C136, third negation: a name with a byte of the coloured half of the Quake character set makes qbsp stop with an
exception, before it has written the BSP file, and what it leaves makes light stop as well. -/
theorem odd_name_stops_qbsp : ¬ FlagsArrive ∧
    write none false [({ surflightTargetname := some [0xe1] }, some 0)] = (some .broken, true) ∧
    ∀ n, load n (some .broken) = .error := by
  have hw : write none false [({ surflightTargetname := some [0xe1] }, some 0)] = (some .broken, true) := by
    rw [write_single (by decide)]
    decide +kernel
  refine ⟨?_, hw, fun n => rfl⟩
  intro h
  obtain ⟨h1, _⟩ := arrive_single h (f := { surflightTargetname := some [0xe1] }) (by
    constructor <;> simp [Int32])
  rw [hw] at h1
  cases h1

example : Typed { phongAngle := 0x42b20000#32, minlight := some 0x41200000#32, surflightTargetname := some [97] } ∧
    Sendable { phongAngle := 0x42b20000#32, minlight := some 0x41200000#32, surflightTargetname := some [97] } ∧
    load 1 (write none false
      [({ phongAngle := 0x42b20000#32, minlight := some 0x41200000#32, surflightTargetname := some [97] }, some 0)]).1 =
      .ok [{ phongAngle := 0x42b20000#32, minlight := some 0x41200000#32, surflightTargetname := some [97] }] := by
  refine ⟨by constructor <;> simp [Int32], ?_, ?_⟩
  · constructor <;> simp <;> decide
  · rw [write_single (by decide)]
    decide +kernel

/-! ### C137: a file that does not belong to the BSP file -/

/-- C137, as the message says: a file that names a texinfo the BSP file does not have is ignored. -/
def MismatchIgnored : Prop := ∀ (n : Nat) (d : Doc) (fl : List Flags),
  (∃ kv ∈ d, ∃ i, Settings.stoull kv.1 = some i ∧ n ≤ i) → load n (some (.doc d)) = .ok fl →
    load n none = .ok fl

theorem loadDoc_mismatch (n : Nat) (d : Doc) (fl r : List Flags)
    (hm : ∃ kv ∈ d, ∃ i, Settings.stoull kv.1 = some i ∧ n ≤ i) (h : loadDoc n d fl = .ok r) :
    r = List.replicate n zeroed := by
  induction d generalizing fl with
  | nil => obtain ⟨_, hk, _⟩ := hm; cases hk
  | cons a d ih =>
    obtain ⟨k, o⟩ := a
    rw [loadDoc] at h
    cases hs : Settings.stoull k with
    | none => rw [hs] at h; cases h
    | some i =>
      rw [hs] at h
      simp only at h
      by_cases hle : n ≤ i
      · rw [if_pos hle] at h; cases h; rfl
      · rw [if_neg hle] at h
        cases hf : fl[i]? with
        | none => rw [hf] at h; cases h
        | some f =>
          rw [hf] at h
          simp only [Outcome.bind_eq_ok] at h
          obtain ⟨g, _, h⟩ := h
          apply ih _ ?_ h
          obtain ⟨kv, hk, j, hj, hnj⟩ := hm
          rcases List.mem_cons.mp hk with rfl | hk
          · simp only at hj
            rw [hs] at hj
            cases hj
            exact absurd hnj hle
          · exact ⟨kv, hk, j, hj, hnj⟩

/-- C137: no member of any texinfo comes from such a file; all are as without a file, except that the scale of colours is
0 instead of 1. -/
theorem mismatch_partial (n : Nat) (d : Doc) (fl : List Flags)
    (hm : ∃ kv ∈ d, ∃ i, Settings.stoull kv.1 = some i ∧ n ≤ i) (h : load n (some (.doc d)) = .ok fl) :
    ∃ fl0, load n none = .ok fl0 ∧ fl = fl0.map fun f => { f with lightcolorscale := 0#32 } := by
  refine ⟨_, rfl, ?_⟩
  rw [loadDoc_mismatch n d _ fl hm h, List.map_replicate]
  rfl

/-- C137, negation: such a file takes the colour out of the light of every face. -/
theorem mismatch_not_ignored : ¬ MismatchIgnored := by
  intro h
  have hl : load 1 (some (.doc [([49], [])])) = .ok [zeroed] := by decide +kernel
  have := h 1 [([49], [])] [zeroed] ⟨([49], []), by simp, 1, by decide +kernel, by omega⟩ hl
  revert this
  decide +kernel

/-- C137: a number in the file that is no number, or something that is not JSON, makes light stop. -/
theorem unreadable_stops (n : Nat) (k : Str) (o : Obj) (d : Doc) (hk : Settings.stoull k = none) :
    load n (some (.doc ((k, o) :: d))) = .error ∧ load n (some .broken) = .error := by
  refine ⟨?_, rfl⟩
  simp only [load, loadDoc, hk]

end Verif.TexFlags
