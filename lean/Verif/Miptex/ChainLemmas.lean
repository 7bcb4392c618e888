import Verif.Miptex.ChainSpec
import Verif.Miptex.Lemmas

namespace Verif.Miptex.Chain

open Verif.Cmdlib (Str cstr iequalC)
open Miptex.Spec (fold)
open Chain.Spec

structure Good (tbl : List Tex) : Prop where
  clean : ∀ t ∈ tbl, 0 ∉ t.name
  unique : (tbl.map Spec.id).Nodup

theorem good_nil : Good [] := ⟨by simp, by simp⟩

theorem matches_iff {name : Str} (h0 : 0 ∉ name) {x : Info} {t : Tex} (ht : 0 ∉ t.name) :
    matches' name x t = true ↔ Spec.id t = (fold name, x.flags, x.value, x.animation) := by
  unfold matches' Spec.id
  simp only [Bool.and_eq_true, beq_iff_eq, iequalC_fold h0 ht, Prod.mk.injEq]
  constructor
  · rintro ⟨⟨⟨a, b⟩, c⟩, d⟩; exact ⟨a.symm, b, c, d⟩
  · rintro ⟨a, b, c, d⟩; exact ⟨⟨⟨a.symm, b⟩, c⟩, d⟩

theorem id_inj {tbl : List Tex} (h : Good tbl) {p q : Nat} {a b : Tex} (ha : tbl[p]? = some a) (hb : tbl[q]? = some b)
    (e : Spec.id a = Spec.id b) : p = q := by
  have hp := (List.getElem?_eq_some_iff.mp ha).1
  have hq := (List.getElem?_eq_some_iff.mp hb).1
  have h1 : (tbl.map Spec.id)[p]? = some (Spec.id a) := by rw [List.getElem?_map, ha]; rfl
  have h2 : (tbl.map Spec.id)[q]? = some (Spec.id b) := by rw [List.getElem?_map, hb]; rfl
  rw [← e, ← h1] at h2
  exact (List.getElem?_inj (by simpa using hp) h.unique).mp h2.symm

theorem place_spec {name : Str} (h0 : 0 ∉ name) (x : Info) {tbl : List Tex} (h : Good tbl) :
    Good (place name x tbl).2.1 ∧ tbl <+: (place name x tbl).2.1 ∧
      ∃ e, (place name x tbl).2.1[(place name x tbl).1]? = some e ∧
        Spec.id e = (fold name, x.flags, x.value, x.animation) := by
  unfold place
  rcases hf : tbl.findIdx? (matches' name x) with _ | i
  · simp only
    refine ⟨⟨?_, ?_⟩, List.prefix_append _ _,
      ⟨name, x.flags, x.value, x.animation, none⟩, by simp, rfl⟩
    · intro t ht
      rcases List.mem_append.mp ht with ht | ht
      · exact h.clean t ht
      · rw [List.mem_singleton.mp ht]; exact h0
    · rw [List.map_append, List.nodup_append]
      refine ⟨h.unique, by simp, ?_⟩
      intro a ha b hb e
      simp only [List.map_cons, List.map_nil, List.mem_singleton] at hb
      obtain ⟨t, ht, rfl⟩ := List.mem_map.mp ha
      rw [List.findIdx?_eq_none_iff] at hf
      have := hf t ht
      rw [(matches_iff h0 (h.clean t ht)).mpr (e.trans hb)] at this
      cases this
  · simp only
    obtain ⟨hi, hm, -⟩ := List.findIdx?_eq_some_iff_getElem.mp hf
    exact ⟨h, List.prefix_refl _, _, List.getElem?_eq_getElem hi, (matches_iff h0 (h.clean _ (List.getElem_mem hi))).mp hm⟩

theorem link_id (tbl : List Tex) (i j : Nat) : (link tbl i j).map Spec.id = tbl.map Spec.id := by
  unfold link
  apply List.ext_getElem?
  intro k
  simp only [List.getElem?_map, List.getElem?_modify]
  rcases tbl[k]? with _ | t
  · rfl
  · by_cases hk : i = k <;> simp [hk, Spec.id]

theorem link_get (tbl : List Tex) (i j k : Nat) :
    (link tbl i j)[k]? = if i = k then (tbl[k]?).map fun t => { t with next := some j } else tbl[k]? := by
  unfold link
  rw [List.getElem?_modify]
  by_cases hk : i = k
  · simp [hk]
  · simp [hk]

theorem link_good {tbl : List Tex} (h : Good tbl) (i j : Nat) : Good (link tbl i j) := by
  refine ⟨?_, by rw [link_id]; exact h.unique⟩
  intro t ht
  obtain ⟨k, hk⟩ := List.mem_iff_getElem?.mp ht
  rw [link_get] at hk
  by_cases e : i = k
  · rw [if_pos e] at hk
    rcases ht' : tbl[k]? with _ | u
    · rw [ht'] at hk; simp at hk
    · rw [ht'] at hk
      simp only [Option.map_some, Option.some.injEq] at hk
      subst hk
      exact h.clean u (List.mem_of_getElem? ht')
  · rw [if_neg e] at hk
    exact h.clean t (List.mem_of_getElem? hk)

theorem link_length (tbl : List Tex) (i j : Nat) : (link tbl i j).length = tbl.length := by
  simp [link]

theorem id_shows {x : Info} {w : Meta} {e : Tex} : Shows x w e ↔ Spec.id e = (fold w.name, x.flags, x.value, w.animation) := by
  simp [Shows, Spec.id]

theorem cstr_clean {s : Str} (h : 0 ∉ s) : cstr s = s := Cmdlib.cstr_of_noNul s (fun _ hc e => h (e ▸ hc))

theorem cstr_noNul (s : Str) : 0 ∉ cstr s := fun h => Cmdlib.cstr_ne_zero s 0 h rfl

theorem iequalC_iff (a b : Str) : iequalC a b = true ↔ fold (cstr a) = fold (cstr b) := by
  have : iequalC a b = iequalC (cstr a) (cstr b) := by
    unfold iequalC
    rw [cstr_clean (cstr_noNul a), cstr_clean (cstr_noNul b)]
  rw [this, iequalC_fold (cstr_noNul a) (cstr_noNul b)]

/-- Placing a texture that is there. -/
theorem place_there {name : Str} (h0 : 0 ∉ name) {x : Info} {tbl : List Tex} (h : Good tbl) {p : Nat} {e : Tex}
    (hp : tbl[p]? = some e) (he : Spec.id e = (fold name, x.flags, x.value, x.animation)) :
    (place name x tbl).1 = p ∧ (place name x tbl).2.1 = tbl := by
  unfold place
  rcases hf : tbl.findIdx? (matches' name x) with _ | i
  · exfalso
    rw [List.findIdx?_eq_none_iff] at hf
    have hm := List.mem_of_getElem? hp
    have := hf e hm
    rw [(matches_iff h0 (h.clean e hm)).mpr he] at this
    cases this
  · simp only
    obtain ⟨hi, hm, -⟩ := List.findIdx?_eq_some_iff_getElem.mp hf
    have := (matches_iff h0 (h.clean _ (List.getElem_mem hi))).mp hm
    exact ⟨id_inj h (List.getElem?_eq_getElem hi) hp (this.trans he.symm), trivial⟩

theorem prefix_get {a b : List Tex} (h : a <+: b) {k : Nat} {e : Tex} (hk : a[k]? = some e) : b[k]? = some e := by
  obtain ⟨l, rfl⟩ := h
  rw [List.getElem?_append_left (List.getElem?_eq_some_iff.mp hk).1, hk]

theorem linked_mem {tbl : List Tex} {x : Info} {i : Nat} : ∀ (vs : List Meta) (ps : List Nat), ps.length = vs.length →
    Linked tbl x i (vs.zip ps) → ∀ p ∈ ps, ∃ v ∈ vs, ∃ e, tbl[p]? = some e ∧ Shows x v e
  | [], [], _, _ => by simp
  | v :: vs, p :: ps, hl, h => by
    intro q hq
    rcases List.mem_cons.mp hq with rfl | hq
    · obtain ⟨⟨e, he, hs, -⟩, -⟩ := h
      exact ⟨v, by simp, e, he, hs⟩
    · obtain ⟨v', hv, r⟩ := linked_mem vs ps (by simpa using hl) h.2 q hq
      exact ⟨v', by simp [hv], r⟩

/-- The loop, for an animation that ends. -/
theorem follow_run (load : Str → Option Meta) (x : Info) (first : Meta) (i : Nat) (hfirst : IsFile load first) :
    ∀ (rest : List Meta) (w : Meta) (last : Nat) (tbl : List Tex) (fuel : Nat), Good tbl → rest.length < fuel →
      Frames load (w :: rest) → ((w :: rest).map fun v => fold v.name).Nodup →
      (∀ v ∈ rest, fold v.name ≠ fold first.name) → Ends load first ((w :: rest).getLast (by simp)) →
      (∃ e, tbl[last]? = some e ∧ Shows x w e) → (∃ e, tbl[i]? = some e ∧ Shows x first e) →
      ∃ l t ns, follow load first.name x fuel w last tbl = some (l, t) ∧ Good t ∧ ns.length = rest.length ∧
        Linked (link t l i) x i ((w :: rest).zip (last :: ns)) ∧
        (∀ k < tbl.length, k ∉ last :: ns → (link t l i)[k]? = tbl[k]?) ∧
        (∀ (k : Nat) (e : Tex), tbl[k]? = some e → ∃ e', (link t l i)[k]? = some e' ∧ Spec.id e' = Spec.id e) := by
  intro rest
  induction rest with
  | nil =>
    intro w last tbl fuel hg hfu hfr hnd hne hend hl hi
    obtain ⟨e, hle, hsh⟩ := hl
    obtain ⟨fuel, rfl⟩ : ∃ k, fuel = k + 1 := ⟨fuel - 1, by simp at hfu; omega⟩
    simp only [List.getLast_singleton] at hend
    have fin : ∀ t, (∃ e, t[last]? = some e ∧ Shows x w e) → (∀ k, k ≠ last → t[k]? = tbl[k]?) → Good t →
        follow load first.name x (fuel + 1) w last tbl = some (last, t) →
        ∃ l t ns, follow load first.name x (fuel + 1) w last tbl = some (l, t) ∧ Good t ∧ ns.length = ([] : List Meta).length ∧
        Linked (link t l i) x i ([w].zip (last :: ns)) ∧
        (∀ k < tbl.length, k ∉ last :: ns → (link t l i)[k]? = tbl[k]?) ∧
        (∀ (k : Nat) (e : Tex), tbl[k]? = some e → ∃ e', (link t l i)[k]? = some e' ∧ Spec.id e' = Spec.id e) := by
      rintro t ⟨e', he, hs⟩ hk gt hf
      refine ⟨last, t, [], hf, gt, rfl, ⟨⟨{ e' with next := some i }, ?_, ?_, rfl⟩, trivial⟩, ?_, ?_⟩
      · rw [link_get, if_pos rfl, he]; rfl
      · exact hs
      · intro k _ hkn
        have : last ≠ k := fun e => hkn (by simp [e])
        rw [link_get, if_neg this, hk k this.symm]
      · intro k y hy
        by_cases hkl : last = k
        · subst hkl
          rw [hle] at hy
          simp only [Option.some.injEq] at hy
          subst hy
          exact ⟨{ e' with next := some i }, by rw [link_get, if_pos rfl, he]; rfl, by
            rw [id_shows.mp hsh, ← id_shows]; exact hs⟩
        · exact ⟨y, by rw [link_get, if_neg hkl, hk k (Ne.symm hkl), hy], rfl⟩
    by_cases ha : w.animation = []
    · exact fin tbl ⟨e, hle, hsh⟩ (fun _ _ => rfl) hg (by rw [follow, if_pos ha])
    rcases hend with h | h | h | h
    · exact absurd h ha
    · have hw : IsFile load w := hfr
      exact fin tbl ⟨e, hle, hsh⟩ (fun _ _ => rfl) hg (by rw [follow, if_neg ha, cstr_clean hw.2.2, h])
    · have hw : IsFile load w := hfr
      obtain ⟨p1, p2⟩ := place_there hw.2.1 (x := { x with animation := w.animation }) hg hle (id_shows.mp hsh)
      refine fin (link tbl last last) ⟨{ e with next := some last }, ?_, hsh⟩ ?_ (link_good hg _ _) ?_
      · rw [link_get, if_pos rfl, hle]; rfl
      · intro k hk
        rw [link_get, if_neg (Ne.symm hk)]
      · rw [follow, if_neg ha, h, cstr_clean hw.2.1, hw.1]
        simp only [cstr_clean hw.2.1, p1, p2]
        rw [if_pos (Or.inr trivial)]
    · obtain ⟨e', hie, hsi⟩ := hi
      obtain ⟨p1, p2⟩ := place_there hfirst.2.1 (x := { x with animation := first.animation }) hg hie (id_shows.mp hsi)
      refine fin (link tbl last i) ⟨{ e with next := some i }, ?_, hsh⟩ ?_ (link_good hg _ _) ?_
      · rw [link_get, if_pos rfl, hle]; rfl
      · intro k hk
        rw [link_get, if_neg (Ne.symm hk)]
      · rw [follow, if_neg ha, h, cstr_clean hfirst.2.1, hfirst.1]
        simp only [cstr_clean hfirst.2.1, p1, p2]
        rw [if_pos (Or.inl ((iequalC_iff _ _).mpr rfl))]
  | cons v rest ih =>
    intro w last tbl fuel hg hfu hfr hnd hne hend hl hi
    obtain ⟨fuel, rfl⟩ : ∃ k, fuel = k + 1 := ⟨fuel - 1, by simp at hfu; omega⟩
    obtain ⟨hw, hwa, hwn, hfr'⟩ := hfr
    have hv : IsFile load v := by
      cases rest with
      | nil => exact hfr'
      | cons => exact hfr'.1
    obtain ⟨e, hle, hsh⟩ := hl
    obtain ⟨e', hie, hsi⟩ := hi
    obtain ⟨g1, pr, u, hu, hid⟩ := place_spec hv.2.1 { x with animation := v.animation } hg
    rcases hpl : place v.name { x with animation := v.animation } tbl with ⟨p, tb, b⟩
    rw [hpl] at g1 pr hu
    simp only at g1 pr hu hid
    have hvn : fold v.name ≠ fold first.name := hne v (by simp)
    have hwv : fold w.name ≠ fold v.name := by
      simp only [List.map_cons, List.nodup_cons, List.mem_cons, not_or] at hnd
      exact hnd.1.1
    have hlp : last ≠ p := by
      rintro rfl
      rw [prefix_get pr hle] at hu
      simp only [Option.some.injEq] at hu
      rw [← hu, id_shows.mp hsh] at hid
      simp only [Prod.mk.injEq] at hid
      exact hwv hid.1
    have hstep : follow load first.name x (fuel + 1) w last tbl =
        follow load first.name x fuel v p (link tb last p) := by
      rw [follow, if_neg hwn, hwa, cstr_clean hv.2.1, hv.1]
      simp only [cstr_clean hv.2.1, hpl]
      rw [if_neg]
      rintro (h | h)
      · rw [iequalC_iff, cstr_clean hv.2.1, cstr_clean hfirst.2.1] at h
        exact hvn h
      · exact hlp h
    have hpe : (link tb last p)[p]? = some u := by rw [link_get, if_neg hlp]; exact hu
    have hus : Shows x v u := id_shows.mpr hid
    have hnd' : ((v :: rest).map fun v => fold v.name).Nodup := (List.nodup_cons.mp hnd).2
    obtain ⟨l, t, ns, hf, gt, hlen, hlk, hother, hids⟩ := ih v p (link tb last p) fuel (link_good g1 _ _)
      (by simp at hfu; omega) hfr' hnd' (fun y hy => hne y (by simp [hy]))
      (by simpa using hend) ⟨u, hpe, hus⟩ (by
        by_cases hil : last = i
        · refine ⟨{ e' with next := some p }, ?_, hsi⟩
          rw [link_get, if_pos hil, prefix_get pr hie]; rfl
        · exact ⟨e', by rw [link_get, if_neg hil, prefix_get pr hie], hsi⟩)
    have hlast : (link tb last p)[last]? = some { e with next := some p } := by
      rw [link_get, if_pos rfl, prefix_get pr hle]; rfl
    have hln : last ∉ p :: ns := by
      intro hm
      obtain ⟨y, hy, e1, he1, hs1⟩ := linked_mem (v :: rest) (p :: ns) (by simp [hlen]) hlk last hm
      obtain ⟨e2, he2, hid2⟩ := hids last _ hlast
      rw [he1] at he2
      simp only [Option.some.injEq] at he2
      subst he2
      have h1 : fold y.name = fold w.name := hs1.1.symm.trans ((congrArg Prod.fst hid2).trans hsh.1)
      have := (List.nodup_cons.mp hnd).1
      exact this (List.mem_map.mpr ⟨y, hy, h1⟩)
    refine ⟨l, t, p :: ns, hstep.trans hf, gt, by simp [hlen], ⟨⟨{ e with next := some p }, ?_, hsh, rfl⟩, hlk⟩, ?_, ?_⟩
    · rw [hother last (by rw [link_length]; exact (List.getElem?_eq_some_iff.mp (prefix_get pr hle)).1) hln, hlast]
    · intro k hk hkn
      simp only [List.mem_cons, not_or] at hkn
      rw [hother k (by rw [link_length]; exact Nat.lt_of_lt_of_le hk pr.length_le) (by simp [hkn.2.1, hkn.2.2]), link_get,
        if_neg (Ne.symm hkn.1)]
      obtain ⟨y, hy⟩ : ∃ y, tbl[k]? = some y := ⟨_, List.getElem?_eq_getElem hk⟩
      rw [prefix_get pr hy, hy]
    · intro k y hy
      by_cases hkl : last = k
      · subst hkl
        obtain ⟨e2, he2, hid2⟩ := hids last _ hlast
        rw [hle] at hy
        simp only [Option.some.injEq] at hy
        subst hy
        exact ⟨e2, he2, hid2⟩
      · exact hids k y (by rw [link_get, if_neg hkl, prefix_get pr hy])

theorem link_keep (tbl : List Tex) (i j : Nat) {k : Nat} {e : Tex} (h : tbl[k]? = some e) :
    ∃ e', (link tbl i j)[k]? = some e' ∧ Spec.id e' = Spec.id e := by
  rw [link_get, h]
  by_cases hk : i = k
  · rw [if_pos hk]; exact ⟨_, rfl, rfl⟩
  · rw [if_neg hk]; exact ⟨_, rfl, rfl⟩

/-- Whatever the files say, the loop only adds textures and links. -/
theorem follow_good (load : Str → Option Meta) (name : Str) (x : Info) : ∀ (fuel : Nat) (w : Meta) (last : Nat)
    (tbl : List Tex), Good tbl → ∀ {l : Nat} {t : List Tex}, follow load name x fuel w last tbl = some (l, t) →
    Good t ∧ ∀ (k : Nat) (e : Tex), tbl[k]? = some e → ∃ e', t[k]? = some e' ∧ Spec.id e' = Spec.id e := by
  intro fuel
  induction fuel with
  | zero => intro w last tbl _ l t h; simp [follow] at h
  | succ fuel ih =>
    intro w last tbl hg l t h
    rw [follow] at h
    by_cases ha : w.animation = []
    · rw [if_pos ha] at h
      simp only [Option.some.injEq, Prod.mk.injEq] at h
      rw [← h.2]
      exact ⟨hg, fun k e he => ⟨e, he, rfl⟩⟩
    rw [if_neg ha] at h
    rcases hl : load (cstr w.animation) with _ | v
    · rw [hl] at h
      simp only [Option.some.injEq, Prod.mk.injEq] at h
      rw [← h.2]
      exact ⟨hg, fun k e he => ⟨e, he, rfl⟩⟩
    rw [hl] at h
    simp only at h
    obtain ⟨g1, pr, -⟩ := place_spec (cstr_noNul v.name) { x with animation := v.animation } hg
    have keep : ∀ (k : Nat) (e : Tex), tbl[k]? = some e → ∃ e',
        (link (place (cstr v.name) { x with animation := v.animation } tbl).2.1 last
          (place (cstr v.name) { x with animation := v.animation } tbl).1)[k]? = some e' ∧ Spec.id e' = Spec.id e :=
      fun k e he => link_keep _ _ _ (prefix_get pr he)
    split_ifs at h with hc
    · simp only [Option.some.injEq, Prod.mk.injEq] at h
      rw [← h.2]
      exact ⟨link_good g1 _ _, keep⟩
    · obtain ⟨gt, hk⟩ := ih _ _ _ (link_good g1 _ _) h
      refine ⟨gt, fun k e he => ?_⟩
      obtain ⟨e1, h1, i1⟩ := keep k e he
      obtain ⟨e2, h2, i2⟩ := hk k e1 h1
      exact ⟨e2, h2, i2.trans i1⟩

/-- Every request leaves the list in order, keeps the textures that are there, and gives the number of one with the name,
flags, value and animation asked for. -/
theorem find_good (load : Str → Option Meta) (fuel : Nat) (request : Str) (info : Option Info) (internal : Bool)
    {tbl : List Tex} (hg : Good tbl) {i : Nat} {t : List Tex}
    (h : findMiptex load fuel request info internal tbl = some (.ok (i, t))) :
    Good t ∧ (∀ (k : Nat) (e : Tex), tbl[k]? = some e → ∃ e', t[k]? = some e' ∧ Spec.id e' = Spec.id e) ∧
      ∃ e, t[i]? = some e ∧ Spec.id e = (fold (cstr request), (infoOf load (cstr request) info internal).flags,
        (infoOf load (cstr request) info internal).value, (infoOf load (cstr request) info internal).animation) := by
  unfold findMiptex at h
  simp only at h
  generalize infoOf load (cstr request) info internal = x at *
  obtain ⟨g1, pr, e, he, hid⟩ := place_spec (cstr_noNul request) x hg
  generalize place (cstr request) x tbl = r at *
  have done : ∀ j u, some (Outcome.ok (r.1, r.2.1)) = some (Outcome.ok (j, u)) → Good u ∧
      (∀ (k : Nat) (e : Tex), tbl[k]? = some e → ∃ e', u[k]? = some e' ∧ Spec.id e' = Spec.id e) ∧
      ∃ e, u[j]? = some e ∧ Spec.id e = (fold (cstr request), x.flags, x.value, x.animation) := by
    intro j u h
    simp only [Option.some.injEq, Outcome.ok.injEq, Prod.mk.injEq] at h
    rw [← h.1, ← h.2]
    exact ⟨g1, fun k e he => ⟨e, prefix_get pr he, rfl⟩, e, he, hid⟩
  by_cases hc : r.2.2 = true ∧ x.animation ≠ []
  · rw [if_pos hc] at h
    rcases hl : load (cstr request) with _ | w
    · rw [hl] at h; simp at h
    rw [hl] at h
    simp only at h
    by_cases hs : iequalC (cstr request) w.animation = true
    · rw [if_pos hs] at h
      exact done i t h
    · rw [if_neg hs] at h
      rcases hf : follow load (cstr request) x fuel w r.1 r.2.1 with _ | ⟨l, u⟩
      · rw [hf] at h; simp at h
      rw [hf] at h
      simp only [Option.some.injEq, Outcome.ok.injEq, Prod.mk.injEq] at h
      obtain ⟨gu, hk⟩ := follow_good load _ x fuel w _ _ g1 hf
      rw [← h.1, ← h.2]
      refine ⟨link_good gu _ _, fun k y hy => ?_, ?_⟩
      · obtain ⟨e1, h1, i1⟩ := hk k y (prefix_get pr hy)
        obtain ⟨e2, h2, i2⟩ := link_keep u l r.1 h1
        exact ⟨e2, h2, i2.trans i1⟩
      · obtain ⟨e1, h1, i1⟩ := hk _ _ he
        obtain ⟨e2, h2, i2⟩ := link_keep u l r.1 h1
        exact ⟨e2, h2, (i2.trans i1).trans hid⟩
  · rw [if_neg hc] at h
    exact done i t h

end Verif.Miptex.Chain
