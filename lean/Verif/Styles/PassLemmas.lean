import Verif.Styles.Lemmas
import Mathlib.Data.Finset.Card

/-!
Lemmas on the first pass over the entities.
-/

namespace Verif.Styles

open Verif
open Verif.EntData (Str Dict get set find keys find_set keys_set)

/-! ### Escape sequences -/

theorem escape_unescaped (v : Str) (h : Unescaped v) : escape false v = v := by
  induction v with
  | nil => rfl
  | cons c v ih =>
    have hv : Unescaped v := fun hi => h (hi.trans (List.suffix_cons c v).isInfix)
    cases v with
    | nil => rfl
    | cons d v =>
      unfold escape
      rw [if_neg, ih hv]
      · rfl
      · rintro ⟨rfl, rfl⟩
        exact h ⟨[], v, rfl⟩

theorem decimal_unescaped (i : Int) : Unescaped (decimal i) := by
  intro h
  have : (92 : UInt8) ∈ decimal i := h.subset (by simp)
  exact decimal_mem i _ this rfl

/-- The entity with its escape sequences replaced. -/
def unfoldEscapes (d : Dict) : Dict := d.map fun kv => (kv.1, escape false kv.2)

theorem find_unfold (d : Dict) (k : Str) : find (unfoldEscapes d) k = (find d k).map (escape false) := by
  induction d with
  | nil => rfl
  | cons p d ih =>
    obtain ⟨a, v⟩ := p
    simp only [unfoldEscapes, List.map_cons, find]
    split
    · rfl
    · exact ih

theorem get_set_other (d : Dict) (k v x : Str) (h : x ≠ k) : get (set d k v) x = get d x := by
  unfold EntData.get
  rw [find_set, if_neg h]

theorem getInt_congr {d e : Dict} {k : Str} (h : get d k = get e k) : getInt d k = getInt e k := by
  unfold getInt; rw [h]

/-! ### Keys -/

theorem style_ne_targetname : lit "targetname" ≠ lit "style" := by decide +kernel
theorem style_ne_shadow : lit "_switchableshadow" ≠ lit "style" := by decide +kernel
theorem style_ne_shad : lit "switchshadstyle" ≠ lit "style" := by decide +kernel
theorem shad_ne_style : lit "style" ≠ lit "switchshadstyle" := by decide +kernel

theorem isLight_iff (d : Dict) : isLight d = true ↔ IsLight d := by
  unfold isLight IsLight; exact List.isPrefixOf_iff_prefix

/-! ### One entity -/

/-- The keys of the slots of an entity, in the order of their names. -/
def slotKeys (d : Dict) : List Str :=
  (if IsLight d ∧ nameOf d ≠ [] then [lit "style"] else []) ++ (if IsShadow d then [lit "switchshadstyle"] else [])

theorem slotKeys_length (d : Dict) : (slotKeys d).length = (slotNames d).length := by
  unfold slotKeys slotNames
  split <;> split <;> rfl

theorem slotNames_get (d : Dict) (p : Nat) (n : Str) (h : (slotNames d)[p]? = some n) : n = nameOf d := by
  have hm := List.mem_of_getElem? h
  unfold slotNames at hm
  rw [List.mem_append] at hm
  rcases hm with hm | hm <;> split at hm <;> simp_all

theorem slot_iff (d : Dict) (k : Str) : Slot d k ↔ k ∈ slotKeys d := by
  unfold slotKeys
  rw [List.mem_append]
  constructor
  · rintro (⟨h1, h2⟩ | h)
    · left; rw [if_pos ⟨h1, h2⟩]; simp
    · right; rw [if_pos h]; simp
  · rintro (h | h)
    · split at h
      · next hl => rw [List.mem_singleton] at h; subst h; exact .light hl.1 hl.2
      · simp at h
    · split at h
      · next hs => rw [List.mem_singleton] at h; subst h; exact .shadow hs
      · simp at h

/-- What the first half of a round does. -/
theorem lightStyle_eq (start max : Int) (t : Table) (d : Dict) :
    lightStyle start max t d =
      if IsLight d ∧ nameOf d ≠ [] then
        (styleFor start max t (nameOf d)).bind fun r => .ok (r.2, set d (lit "style") (decimal r.1))
      else .ok (t, d) := by
  unfold lightStyle
  by_cases hl : isLight d = true
  · rw [if_pos hl]
    have hl' := (isLight_iff d).mp hl
    by_cases hn : nameOf d = []
    · have hn' : (get d (lit "targetname")).isEmpty = true := by
        have : get d (lit "targetname") = [] := hn
        rw [this]; rfl
      rw [if_pos hn', if_neg (by tauto)]
    · have hn' : ¬ (get d (lit "targetname")).isEmpty = true := by
        intro h0; exact hn (List.isEmpty_iff.mp h0)
      rw [if_neg hn', if_pos ⟨hl', hn⟩]
      rfl
  · rw [if_neg hl, if_neg (fun h => hl ((isLight_iff d).mpr h.1))]

theorem getInt_cases (d : Dict) (k : Str) : getInt d k = .ub ∨ ∃ n, getInt d k = .ok n := by
  unfold getInt
  split
  · right; exact ⟨_, rfl⟩
  · next neg n _ =>
    by_cases hc : -2 ^ 31 ≤ (if neg = true then -(n : Int) else n) ∧ (if neg = true then -(n : Int) else n) < 2 ^ 31
    · right; exact ⟨_, if_pos hc⟩
    · left; exact if_neg hc

/-- What the second half of a round does. -/
theorem shadowStyle_eq (start max : Int) (t : Table) (d : Dict) (hd : getInt d (lit "_switchableshadow") ≠ .ub) :
    shadowStyle start max t d =
      if IsShadow d then
        (styleFor start max t (nameOf d)).bind fun r => .ok (r.2, set d (lit "switchshadstyle") (decimal r.1))
      else .ok (t, d) := by
  unfold shadowStyle
  have hg := getInt_cases d (lit "_switchableshadow")
  rcases hg with h | ⟨n, h⟩
  · exact absurd h hd
  · have hiff : IsShadow d ↔ n = 1 := by unfold IsShadow; rw [h]; simp
    rw [h]
    simp only [Outcome.ok_bind]
    by_cases hn : n = 1
    · rw [if_pos hn, if_pos (hiff.mpr hn)]; rfl
    · rw [if_neg hn, if_neg (fun h' => hn (hiff.mp h'))]; rfl

/-- A round that is defined: it asks for the styles of the slots, and stores them. -/
theorem prepare_defined (start max : Int) (t : Table) (d : Dict) (hd : Defined d) :
    prepare start max t d = (requests start max t (slotNames d)).bind fun r =>
      .ok (r.1, unfoldEscapes (((slotKeys d).zip r.2).foldl (fun d p => set d p.1 (decimal p.2)) d)) := by
  unfold prepare fixScale
  rw [if_pos (by rw [hd.1]; rfl)]
  simp only [Outcome.ok_bind]
  rw [lightStyle_eq]
  unfold slotNames slotKeys
  by_cases hl : IsLight d ∧ nameOf d ≠ []
  · simp only [if_pos hl]
    cases h1 : styleFor start max t (nameOf d) with
    | ub => exact absurd h1 (styleFor_not_ub _ _ _ _)
    | error => simp [requests, h1, Outcome.bind]
    | ok r =>
      obtain ⟨s, t1⟩ := r
      simp only [Outcome.bind, Outcome.ok_bind]
      have hn : nameOf (set d (lit "style") (decimal s)) = nameOf d := get_set_other _ _ _ _ style_ne_targetname
      have hg : getInt (set d (lit "style") (decimal s)) (lit "_switchableshadow") =
        getInt d (lit "_switchableshadow") := getInt_congr (get_set_other _ _ _ _ style_ne_shadow)
      have hsh : IsShadow (set d (lit "style") (decimal s)) ↔ IsShadow d := by unfold IsShadow; rw [hg]
      rw [shadowStyle_eq _ _ _ _ (by rw [hg]; exact hd.2), hn]
      by_cases hs : IsShadow d
      · simp only [if_pos hs, if_pos (hsh.mpr hs)]
        cases h2 : styleFor start max t1 (nameOf d) with
        | ub => exact absurd h2 (styleFor_not_ub _ _ _ _)
        | error => simp [requests, h1, h2, Outcome.bind]
        | ok r2 => simp [requests, h1, h2, Outcome.bind]; rfl
      · simp only [if_neg hs, if_neg (fun h => hs (hsh.mp h))]
        simp [requests, h1, Outcome.bind]; rfl
  · simp only [if_neg hl, List.nil_append]
    simp only [Outcome.ok_bind]
    rw [shadowStyle_eq _ _ _ _ hd.2]
    by_cases hs : IsShadow d
    · simp only [if_pos hs]
      cases h2 : styleFor start max t (nameOf d) with
      | ub => exact absurd h2 (styleFor_not_ub _ _ _ _)
      | error => simp [requests, h2, Outcome.bind]
      | ok r2 => simp [requests, h2, Outcome.bind]; rfl
    · simp only [if_neg hs]
      simp [requests, Outcome.bind]; rfl

end Verif.Styles
