import Verif.Target.Spec

/-! **C225.** The format that qbsp writes, and the options that depend on it. -/

namespace Verif.Target

open Settings (Source)
open Spec

/-! ### Helpers -/

theorem asked_eq (o : Options) : asked o =
    (if o.hlbsp.value then [.hl] else []) ++ (if wantsQ2 o then [.q2] else []) ++
      (if o.qbism.value then [.qbism] else []) ++ (if o.bsp2.value then [.bsp2] else []) ++ (if o.bsp2rmq.value then [.bsp2rmq] else []) := by
  have : (o.q2bsp.value ∨ (o.q2rtx.value ∧ o.q2bsp.source = .default ∧ o.qbism.source = .default)) ↔ wantsQ2 o = true := by
    simp [wantsQ2, Opt.changed, and_assoc]
  unfold asked
  simp only [this]

/-- The format that the flags lead to, before `-hexen2`. -/
theorem chooseVersion_eq (o : Options) (ho : o.version = none) : chooseVersion o =
    match asked o with
    | [] => .ok { o with version := some .q1 }
    | [v] => .ok { o with version := some v }
    | _ => .error := by
  rw [asked_eq]
  unfold chooseVersion
  have hw : ∀ v, wantsQ2 { o with version := v } = wantsQ2 o := fun _ => rfl
  cases hlv : o.hlbsp.value <;> cases hq : wantsQ2 o <;>
    cases hqb : o.qbism.value <;> cases hb : o.bsp2.value <;> cases hr : o.bsp2rmq.value <;>
    simp [setVersionIf, setVersion, ho, hw, hlv, hq, hqb, hb, hr]

theorem dflt_set {α : Type} (o : Opt α) (v : α) : Set True v o (o.dflt v) := by
  obtain ⟨x, s⟩ := o
  cases s <;> simp [Set, Opt.dflt, Opt.changed, Opt.set, Settings.changeSource, Source.rank]

theorem set_dflt {α : Type} {c : Prop} (h : c) (o : Opt α) (v : α) : Set c v o (o.dflt v) :=
  ⟨fun g => (dflt_set o v).1 ⟨g.1, trivial⟩, fun g => (dflt_set o v).2 (fun k => g ⟨k.1, h⟩)⟩

theorem set_same {α : Type} {c : Prop} (h : ¬ c) (o : Opt α) (v : α) : Set c v o o := ⟨fun g => absurd g.2 h, fun _ => rfl⟩

theorem dflt_dflt {α : Type} (o : Opt α) (v : α) : (o.dflt v).dflt v = o.dflt v := by
  obtain ⟨x, s⟩ := o
  cases s <;> simp [Opt.dflt, Opt.changed, Opt.set, Settings.changeSource, Source.rank]

theorem subdivide_eq (b : Bool) (o : Opt Int) : (if !b && !o.changed then o.set 496 .gameTarget else o) = if b then o else o.dflt 496 := by
  cases b <;> simp [Opt.dflt]

/-- The options of Quake II. -/
theorem q2Effects_eq (o : Options) (h : (o.version.map Ver.isQ2).getD false = true) : q2Effects o =
    let sw := if o.version = some .qbism then o.software.dflt false else o.software
    { o with maxedges := o.maxedges.dflt 0, software := sw, subdivide := if sw.value then o.subdivide else o.subdivide.dflt 496,
             chop := o.chop.dflt true } := by
  unfold q2Effects
  rw [if_pos h]
  by_cases hv : o.version = some .qbism
  · simp only [hv, if_true]
    rw [← subdivide_eq]
    split <;> rfl
  · simp only [hv, if_false]
    rw [← subdivide_eq]
    split <;> rfl

theorem effects (o : Options) (v : Ver) (ho : o.version = some v) : Effects o (q2Effects (rtxEffects o)) ∧
    (q2Effects (rtxEffects o)).version = some v := by
  have hsub : ∀ (b : Bool) (x : Opt Int), Set (b = false) 496 x (if b then x else x.dflt 496) := by
    intro b x
    cases b
    · exact set_dflt rfl _ _
    · exact set_same (by simp) _ _
  by_cases hr : o.q2rtx.value = true
  · have hrtx : rtxEffects o = { o with includeskip := o.includeskip.dflt true, software := o.software.dflt false } := by
      unfold rtxEffects
      rw [if_pos hr]
    rw [hrtx]
    by_cases h2 : v.isQ2 = true
    · have hv : (o.version = some .q2 ∨ o.version = some .qbism) := by
        rw [ho]
        cases v <;> simp [Ver.isQ2] at h2 ⊢
      rw [q2Effects_eq _ (by simp [ho, h2])]
      dsimp only
      rw [dflt_dflt, ite_self]
      refine ⟨⟨set_dflt hr _ _, set_dflt (.inl hr) _ _, set_dflt hv _ _, ?_, set_dflt hv _ _, rfl, rfl, rfl, rfl, rfl, rfl, rfl⟩, ho⟩
      dsimp only
      simp only [hv, true_and]
      exact hsub _ _
    · have hv : ¬ (o.version = some .q2 ∨ o.version = some .qbism) := by
        rw [ho]
        cases v <;> simp [Ver.isQ2] at h2 ⊢
      unfold q2Effects
      rw [if_neg (by simp [ho, h2])]
      exact ⟨⟨set_dflt hr _ _, set_dflt (.inl hr) _ _, set_same hv _ _, set_same (fun g => hv g.1) _ _, set_same hv _ _,
        rfl, rfl, rfl, rfl, rfl, rfl, rfl⟩, ho⟩
  · have hrtx : rtxEffects o = o := by
      unfold rtxEffects
      rw [if_neg hr]
    rw [hrtx]
    by_cases h2 : v.isQ2 = true
    · have hv : (o.version = some .q2 ∨ o.version = some .qbism) := by
        rw [ho]
        cases v <;> simp [Ver.isQ2] at h2 ⊢
      rw [q2Effects_eq _ (by simp [ho, h2])]
      dsimp only
      refine ⟨⟨set_same hr _ _, ?_, set_dflt hv _ _, ?_, set_dflt hv _ _, rfl, rfl, rfl, rfl, rfl, rfl, rfl⟩, ho⟩
      · dsimp only
        by_cases hq : o.version = some .qbism
        · rw [if_pos hq]
          exact set_dflt (.inr hq) _ _
        · rw [if_neg hq]
          exact set_same (fun g => g.elim hr hq) _ _
      · dsimp only
        simp only [hv, true_and]
        exact hsub _ _
    · have hv : ¬ (o.version = some .q2 ∨ o.version = some .qbism) := by
        rw [ho]
        cases v <;> simp [Ver.isQ2] at h2 ⊢
      unfold q2Effects
      rw [if_neg (by simp [ho, h2])]
      exact ⟨⟨set_same hr _ _, set_same (fun g => g.elim hr (fun k => hv (.inr k))) _ _, set_same hv _ _, set_same (fun g => hv g.1) _ _,
        set_same hv _ _, rfl, rfl, rfl, rfl, rfl, rfl, rfl⟩, ho⟩

/-- The format behind `-hexen2`. -/
def final (h : Bool) (v : Ver) : Ver := if h then hexen v else v

theorem post_ok (o : Options) (v : Ver) (h : chooseVersion o = .ok { o with version := some v }) :
    ∃ o', postinitialize o = .ok o' ∧ o'.version = some (final o.hexen2.value v) ∧ Effects o o' := by
  have ha : applyHexen { o with version := some v } = { o with version := some (final o.hexen2.value v) } := by
    unfold applyHexen final
    cases o.hexen2.value <;> rfl
  obtain ⟨he, hv⟩ := effects { o with version := some (final o.hexen2.value v) } _ rfl
  refine ⟨_, by unfold postinitialize; rw [h, Outcome.ok_bind, ha], hv, ?_⟩
  obtain ⟨a, b, c, d, e, f⟩ := he
  exact ⟨a, b, c, d, e, f⟩

/-! ### The properties -/

/-- **C225.** Without a flag of a format qbsp writes the format of Quake, or that of Hexen II. -/
theorem no_flag (o : Options) (ho : o.version = none) (h : asked o = []) :
    ∃ o', postinitialize o = .ok o' ∧ o'.version = some (if o.hexen2.value then .h2 else .q1) ∧ Effects o o' := by
  obtain ⟨o', h1, h2, h3⟩ := post_ok o .q1 (by rw [chooseVersion_eq o ho, h])
  refine ⟨o', h1, ?_, h3⟩
  rw [h2]
  cases o.hexen2.value <;> rfl

/-- **C225.** With one flag of a format and without `-hexen2` qbsp writes that format. -/
theorem one_flag (o : Options) (ho : o.version = none) {v : Ver} (h : asked o = [v]) (hx : o.hexen2.value = false) :
    ∃ o', postinitialize o = .ok o' ∧ o'.version = some v ∧ Effects o o' := by
  obtain ⟨o', h1, h2, h3⟩ := post_ok o v (by rw [chooseVersion_eq o ho, h])
  rw [hx] at h2
  exact ⟨o', h1, h2, h3⟩

/-- **C225.** With `-hexen2` and the flag of a format that Hexen II has, qbsp writes that format for Hexen II. -/
theorem hexen_flag (o : Options) (ho : o.version = none) {v w : Ver} (h : asked o = [v]) (hx : o.hexen2.value = true) (hw : HexenOf v w) :
    ∃ o', postinitialize o = .ok o' ∧ o'.version = some w ∧ Effects o o' := by
  obtain ⟨o', h1, h2, h3⟩ := post_ok o v (by rw [chooseVersion_eq o ho, h])
  rw [hx] at h2
  refine ⟨o', h1, ?_, h3⟩
  rw [h2]
  cases hw <;> rfl

/-- **C225.** Two flags of formats are an error. -/
theorem two_flags (o : Options) (ho : o.version = none) (h : 2 ≤ (asked o).length) : postinitialize o = .error := by
  unfold postinitialize
  rw [chooseVersion_eq o ho]
  rcases ha : asked o with _ | ⟨a, _ | ⟨b, l⟩⟩
  · rw [ha] at h
    simp at h
  · rw [ha] at h
    simp at h
  · rfl

/-- **C225.** What the user set is kept. -/
theorem user_wins (o o' : Options) (ho : o.version = none) (h : postinitialize o = .ok o') :
    (o.software.source ≠ .default → o'.software = o.software) ∧ (o.includeskip.source ≠ .default → o'.includeskip = o.includeskip) ∧
    (o.maxedges.source ≠ .default → o'.maxedges = o.maxedges) ∧ (o.subdivide.source ≠ .default → o'.subdivide = o.subdivide) ∧
    (o.chop.source ≠ .default → o'.chop = o.chop) := by
  have hex : ∃ v, chooseVersion o = .ok { o with version := some v } := by
    have hc := chooseVersion_eq o ho
    rcases ha : asked o with _ | ⟨a, _ | ⟨b, l⟩⟩
    · exact ⟨_, by rw [hc, ha]⟩
    · exact ⟨_, by rw [hc, ha]⟩
    · unfold postinitialize at h
      rw [hc, ha] at h
      cases h
  obtain ⟨v, hv⟩ := hex
  obtain ⟨o2, h1, -, e⟩ := post_ok o v hv
  rw [h] at h1
  cases h1
  exact ⟨fun g => e.software.2 fun k => g k.1, fun g => e.includeskip.2 fun k => g k.1, fun g => e.maxedges.2 fun k => g k.1,
    fun g => e.subdivide.2 fun k => g k.1, fun g => e.chop.2 fun k => g k.1⟩

/-- `-hexen2` with `-q2bsp`, `-qbism` or `-hlbsp`: these are two formats, but there is no error; the other flag is ignored. -/
theorem hexen_hides (o : Options) (ho : o.version = none) (h : asked o = [.q2] ∨ asked o = [.qbism] ∨ asked o = [.hl])
    (hx : o.hexen2.value = true) : ∃ o', postinitialize o = .ok o' ∧ o'.version = some .h2 := by
  rcases h with h | h | h <;>
  · obtain ⟨o', h1, h2, -⟩ := post_ok o _ (by rw [chooseVersion_eq o ho, h])
    rw [hx] at h2
    exact ⟨o', h1, h2⟩

/-- The options of a second map: if they are not reset, any flag of a format is an error, even the same. -/
theorem not_reset (o : Options) {v : Ver} (ho : o.version = some v) (h : asked o ≠ []) : postinitialize o = .error := by
  rw [asked_eq] at h
  unfold postinitialize chooseVersion
  cases hlv : o.hlbsp.value <;> cases hq : wantsQ2 o <;>
    cases hqb : o.qbism.value <;> cases hb : o.bsp2.value <;> cases hr : o.bsp2rmq.value <;>
    first
    | (simp [hlv, hq, hqb, hb, hr] at h; done)
    | simp [setVersionIf, setVersion, ho, hlv, hq, hqb, hb, hr]

/-! ### Examples -/

/-- `-qbism -subdivide 240`. -/
def exQbism : Options := { reset with qbism := ⟨true, .commandLine⟩, subdivide := ⟨240, .commandLine⟩ }

example : exQbism.version = none ∧ asked exQbism = [.qbism] ∧ exQbism.hexen2.value = false ∧
    postinitialize exQbism = .ok { exQbism with software := ⟨false, .gameTarget⟩, maxedges := ⟨0, .gameTarget⟩, chop := ⟨true, .gameTarget⟩,
                                                version := some .qbism } := by decide +kernel

example : asked reset = [] ∧ asked { reset with q2rtx := ⟨true, .commandLine⟩ } = [.q2] ∧
    asked { reset with q2rtx := ⟨true, .commandLine⟩, q2bsp := ⟨false, .commandLine⟩ } = [] ∧
    asked { reset with bsp2 := ⟨true, .commandLine⟩, hlbsp := ⟨true, .commandLine⟩ } = [.hl, .bsp2] ∧
    asked { reset with q2bsp := ⟨true, .commandLine⟩, hexen2 := ⟨true, .commandLine⟩ } = [.q2] := by decide +kernel

end Verif.Target
