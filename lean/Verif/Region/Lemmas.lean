import Mathlib.Tactic.Linarith
import Mathlib.Tactic.Ring
import Verif.Region.Spec

namespace Verif.Region

open Geom Spec
open Geom.Spec (Inside Proper)

variable {K : Type} [Field K] [LinearOrder K] [IsStrictOrderedRing K]

theorem dot_neg (n p : Vec K) : dot (neg n) p = -dot n p := by
  simp only [dot, neg]
  ring

theorem antiLoop_true (b : Box K 3) (rs : List (Box K 3)) : antiLoop b rs = true := by
  induction rs with
  | nil => rfl
  | cons r rs ih =>
    unfold antiLoop
    rw [ih]
    simp

theorem disjoint_meet {a b : Box K 3} (ha : Proper a) (hb : Proper b) : a.disjoint b 0 = true ↔ ¬ Meet a b := by
  rw [Box.disjoint_iff (le_refl 0) ha hb]
  constructor
  · rintro h ⟨p, h1, h2⟩
    exact h ⟨p, p, h1, h2, fun i => by simp⟩
  · rintro h ⟨p, q, h1, h2, h3⟩
    have : p = q := by
      funext i
      have := abs_nonpos_iff.1 (h3 i)
      linarith
    subst this
    exact h ⟨p, h1, h2⟩

theorem antiHit_some (e : Ent K) (anti : List (Box K 3)) :
    antiHit (some e) anti = .ok (anti.any fun r => r.containsPoint e.origin) := by
  induction anti with
  | nil => rfl
  | cons r rs ih =>
    unfold antiHit
    by_cases h : r.containsPoint e.origin = true
    · simp [h]
    · simp only [Bool.not_eq_true] at h
      simp [h, ih]

open Classical in
theorem removeEnts_eq (region : Option (Box K 3)) (anti : List (Box K 3)) (h : region = none ∨ anti = []) :
    ∀ (ents : List (Ent K)) (k : Nat), ents.length ≤ k → removeEnts region anti k ents = .ok (ents.filter fun e => Stays region anti e) := by
  intro ents
  induction ents with
  | nil =>
    intro k _
    cases k <;> rfl
  | cons e rest ih =>
    intro k hk
    obtain ⟨k, rfl⟩ : ∃ j, k = j + 1 := ⟨k - 1, by simp at hk; omega⟩
    have ih' := ih k (by simp at hk; omega)
    unfold removeEnts
    by_cases hb : e.brushes = 0
    · rw [if_pos hb]
      by_cases hr : region.any (fun r => !r.containsPoint e.origin) = true
      · rw [if_pos hr]
        have ha : anti = [] := by
          rcases h with h | h
          · subst h
            simp at hr
          · exact h
        have hs : ¬ Stays region anti e := by
          rintro (h0 | h0)
          · exact h0 hb
          · rw [Option.any_eq_true] at hr
            obtain ⟨r, hr1, hr2⟩ := hr
            have := (Box.containsPoint_iff r e.origin).2 (h0.1 r hr1)
            simp [this] at hr2
        subst ha
        rw [List.filter_cons_of_neg (by simpa using hs), ← ih']
        rfl
      · rw [if_neg hr, antiHit_some, Outcome.ok_bind]
        have hin : ∀ r, region = some r → Inside r e.origin := by
          intro r hr'
          subst hr'
          rw [← Box.containsPoint_iff]
          simpa using hr
        by_cases hh : (anti.any fun r => r.containsPoint e.origin) = true
        · rw [if_pos hh, ih', List.filter_cons_of_neg]
          simp only [decide_eq_true_eq]
          rintro (h0 | h0)
          · exact h0 hb
          · rw [List.any_eq_true] at hh
            obtain ⟨r, hr1, hr2⟩ := hh
            exact h0.2 r hr1 ((Box.containsPoint_iff r e.origin).1 hr2)
        · rw [if_neg hh, ih', Outcome.ok_bind, List.filter_cons_of_pos]
          simp only [decide_eq_true_eq]
          refine Or.inr ⟨hin, fun r hr1 hr2 => hh ?_⟩
          rw [List.any_eq_true]
          exact ⟨r, hr1, (Box.containsPoint_iff r e.origin).2 hr2⟩
    · rw [if_neg hb, ih', Outcome.ok_bind, List.filter_cons_of_pos]
      simp only [decide_eq_true_eq]
      exact Or.inl hb

end Verif.Region
