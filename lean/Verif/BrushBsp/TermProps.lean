import Verif.BrushBsp.TermLemmas
import Verif.BrushBsp.TreeSpec

/-! Property C94: the construction of the tree ends, without an error, and no path meets a plane twice. -/

namespace Verif.BrushBsp

open Geom Spec

set_option linter.unusedSectionVars false

variable {K C : Type} [Field K] [LinearOrder K]

theorem buildTree_ok (env : Env K C) : ∀ (fuel : Nat) (parents : List Nat) (vol : Option (Brush K C)) (nb : Bounds K)
    (bs : List (Brush K C)), (∀ n ∈ openPlanes bs, n ∉ parents) → (openPlanes bs).card < fuel →
    ∃ t, buildTree env fuel parents vol nb bs = some (.ok t) ∧
      ∀ p ∈ paths t, p.Nodup ∧ (∀ n ∈ p, n ∈ openPlanes bs) ∧ p.length ≤ (openPlanes bs).card := by
  intro fuel
  induction fuel with
  | zero => intro _ _ _ _ _ h; omega
  | succ fuel ih =>
    intro parents vol nb bs hp hf
    obtain ⟨o, e, ho⟩ := selectSplit_ok (env := env) (vol := vol) (nb := nb) hp
    unfold buildTree
    rw [e]
    cases o with
    | none =>
      refine ⟨_, rfl, ?_⟩
      intro p hp
      simp only [leafNode, paths, List.mem_singleton] at hp
      subst hp
      simp
    | some c =>
      obtain ⟨⟨b, hb, s, hs, hon, hc⟩, hsides⟩ := ho c rfl
      have hn : positive c.planenum = c.planenum := by rw [← hc]; exact positive_positive _
      have hmem : c.planenum ∈ openPlanes bs := mem_open.2 ⟨b, hb, s, hs, hon, hc⟩
      have hl := list_open (env := env) hn bs
      rw [← hsides] at hl
      have hcard : ((openPlanes bs).erase c.planenum).card + 1 = (openPlanes bs).card := by
        rw [Finset.card_erase_of_mem hmem]
        have := Finset.card_pos.2 ⟨_, hmem⟩
        omega
      have step : ∀ l : List (Brush K C), openPlanes l ⊆ (openPlanes bs).erase c.planenum →
          (∀ n ∈ openPlanes l, n ∉ c.planenum :: parents) ∧ (openPlanes l).card < fuel ∧
          (openPlanes l).card + 1 ≤ (openPlanes bs).card ∧ ∀ n ∈ openPlanes l, n ≠ c.planenum ∧ n ∈ openPlanes bs := by
        intro l hsub
        have hle := Finset.card_le_card hsub
        refine ⟨?_, by omega, by omega, fun n hn => Finset.mem_erase.1 (hsub hn)⟩
        intro n hn hm
        obtain ⟨h1, h2⟩ := Finset.mem_erase.1 (hsub hn)
        rcases List.mem_cons.1 hm with h | h
        · exact h1 h
        · exact hp n h2 h
      obtain ⟨a1, a2, a3, a4⟩ := step _ hl.1
      obtain ⟨b1, b2, b3, b4⟩ := step _ hl.2
      obtain ⟨tf, ef, pf⟩ := ih (c.planenum :: parents) (childVolumes env c.planenum vol).1
        (childBounds (env.planes c.planenum) nb).1 _ a1 a2
      obtain ⟨tg, eg, pg⟩ := ih (c.planenum :: parents) (childVolumes env c.planenum vol).2
        (childBounds (env.planes c.planenum) nb).2 _ b1 b2
      simp only [ef, eg]
      refine ⟨_, rfl, ?_⟩
      intro p hp
      simp only [paths, List.mem_append, List.mem_map] at hp
      rcases hp with ⟨q, hq, rfl⟩ | ⟨q, hq, rfl⟩
      · obtain ⟨n1, n2, n3⟩ := pf q hq
        refine ⟨List.nodup_cons.2 ⟨fun h => (a4 _ (n2 _ h)).1 rfl, n1⟩, ?_, by simp only [List.length_cons]; omega⟩
        intro n hn
        rcases List.mem_cons.1 hn with rfl | hn
        · exact hmem
        · exact (a4 n (n2 n hn)).2
      · obtain ⟨n1, n2, n3⟩ := pg q hq
        refine ⟨List.nodup_cons.2 ⟨fun h => (b4 _ (n2 _ h)).1 rfl, n1⟩, ?_, by simp only [List.length_cons]; omega⟩
        intro n hn
        rcases List.mem_cons.1 hn with rfl | hn
        · exact hmem
        · exact (b4 n (n2 n hn)).2

theorem open_planesOf (bs : List (Brush K C)) : (openPlanes (bs.map clearOnnode)).card ≤ (planesOf bs).length ∧
    ∀ n ∈ openPlanes (bs.map clearOnnode), ∃ b ∈ bs, ∃ s ∈ b.sides, n = s.planenum / 2 * 2 := by
  have key : ∀ n ∈ openPlanes (bs.map clearOnnode), ∃ b ∈ bs, ∃ s ∈ b.sides, n = s.planenum / 2 * 2 := by
    intro n hn
    obtain ⟨b', hb', s', hs', _, e⟩ := mem_open.1 hn
    obtain ⟨b, hb, rfl⟩ := List.mem_map.1 hb'
    simp only [clearOnnode, List.mem_map] at hs'
    obtain ⟨s, hs, rfl⟩ := hs'
    exact ⟨b, hb, s, hs, e.symm⟩
  refine ⟨?_, key⟩
  have hsub : openPlanes (bs.map clearOnnode) ⊆ ((planesOf bs).toFinset.image fun n => n * 2) := by
    intro n hn
    obtain ⟨b, hb, s, hs, rfl⟩ := key n hn
    rw [Finset.mem_image]
    refine ⟨s.planenum / 2, ?_, rfl⟩
    rw [List.mem_toFinset]
    unfold planesOf
    rw [List.mem_dedup, List.mem_map]
    exact ⟨s, List.mem_flatMap.2 ⟨b, hb, hs⟩, rfl⟩
  calc (openPlanes (bs.map clearOnnode)).card ≤ ((planesOf bs).toFinset.image fun n => n * 2).card := Finset.card_le_card hsub
    _ ≤ (planesOf bs).toFinset.card := Finset.card_image_le
    _ ≤ (planesOf bs).length := List.toFinset_card_le _

/-- C94: for every list of brushes (of any shape, also with broken polygons), and for every choice of the options,
`BrushBSP` ends and raises no error ("Tried parent", "PSIDE_FACING with splits"). The tree is not deeper than the number
of different planes of the brushes, no plane occurs twice on a way from the root to a leaf, and every plane is one of a
brush. -/
theorem brush_bsp_ends (env : Env K C) (fromBounds : Bounds K → Brush K C) (sidespace : K) (bs : List (Brush K C))
    (hbs : bs ≠ []) (fuel : Nat) (hf : (planesOf bs).length < fuel) :
    ∃ t, brushBsp env fromBounds sidespace fuel bs = some (.ok t) ∧
      ∀ p ∈ paths t, p.Nodup ∧ p.length ≤ (planesOf bs).length ∧
        ∀ n ∈ p, ∃ b ∈ bs, ∃ s ∈ b.sides, n = s.planenum / 2 * 2 := by
  obtain ⟨h1, h2⟩ := open_planesOf bs
  unfold brushBsp
  rw [if_neg hbs]
  obtain ⟨t, e, ht⟩ := buildTree_ok env fuel [] (some (fromBounds (grow sidespace (totalBounds env.huge bs))))
    (grow sidespace (totalBounds env.huge bs)) (bs.map clearOnnode) (by simp) (by omega)
  refine ⟨t, e, ?_⟩
  intro p hp
  obtain ⟨a, b, c⟩ := ht p hp
  exact ⟨a, by omega, fun n hn => h2 n (b n hn)⟩

end Verif.BrushBsp
