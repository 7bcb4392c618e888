import Verif.LeafBrush.Lemmas
import Mathlib.Algebra.Order.Ring.Rat

/-! **C224.** The brushes in a file of Quake II. -/

namespace Verif.LeafBrush

open Contents Spec

set_option linter.unusedSectionVars false

variable {K V F : Type} [Field K] [LinearOrder K] [IsStrictOrderedRing K] [DecidableEq V] [DecidableEq F]

/-- Nothing was written yet. -/
def Spec.Start {A D S : Type} (st : St A D S) : Prop :=
  (∀ (b : Nat) m, st.mbrushes[b]? = some m → m.out = none) ∧ st.dbrushes = [] ∧ st.dsides = [] ∧ st.dleafbrushes = []

theorem start_good {A D S : Type} {Inv : S → Prop} {R : S → A → D → Prop} {st : St A D S} (h : Start st) (hi : Inv st.rest) :
    Good Inv R st := by
  obtain ⟨h1, h2, h3, h4⟩ := h
  have no : ∀ P : A → D → Prop, ∀ b n, ¬ IsBrush P st b n := by
    rintro P b n ⟨m, d, g1, g2, -⟩
    rw [h1 b m g1] at g2
    cases g2
  refine ⟨hi, ⟨?_, ?_, ?_, ?_, ?_⟩⟩
  · intro b m n g1 g2
    rw [h1 b m g1] at g2
    cases g2
  · intro n hn
    simp [h2] at hn
  · intro b b' n g _
    exact absurd g (no _ _ _)
  · intro i d hd
    simp [h2] at hd
  · simp [h2, h3]

variable {e : Env K V F} {ts : List ((Rest K V F → Outcome (Rest K V F)) × Tree)} {ts' : List Tree}
  {st st' : St Side (Nat × Option Nat) (Rest K V F)}

/-- **C224.** When the trees of all models were written, each leaf that is not empty in the file names the brushes in it, in order, and
these are brushes of the file with the contents, the planes and the kinds of textures of the brushes of the map. -/
theorem leafs_name (hs : Start st) (hr : RestOk e st.rest)
    (ho : ∀ p ∈ ts, ∀ s s', RestOk e s → p.1 s = .ok s' → RestOk e s' ∧ RestLe e s s')
    (h : exportTrees (exportSide e) ts st = .ok (ts', st')) :
    List.Forall₂ (LeafOk (SideOk e st'.rest) st') (ts.flatMap fun p => leafs p.2) (ts'.flatMap leafs) :=
  (exportTrees_spec (side_sound e) ts ho (start_good hs hr) h).2.2

/-- **C224.** Each brush of the file is a brush of the map, none is there twice, and their sides follow each other without gaps. -/
theorem brushes_written (hs : Start st) (hr : RestOk e st.rest)
    (ho : ∀ p ∈ ts, ∀ s s', RestOk e s → p.1 s = .ok s' → RestOk e s' ∧ RestLe e s s')
    (h : exportTrees (exportSide e) ts st = .ok (ts', st')) : Brushes (SideOk e st'.rest) st' :=
  (exportTrees_spec (side_sound e) ts ho (start_good hs hr) h).1.brushes

/-- **C224.** A brush of the map is in the file if and only if it is in a leaf that is not empty in the file. -/
theorem written_iff_leaf (hs : Start st) (hr : RestOk e st.rest)
    (ho : ∀ p ∈ ts, ∀ s s', RestOk e s → p.1 s = .ok s' → RestOk e s' ∧ RestLe e s s')
    (h : exportTrees (exportSide e) ts st = .ok (ts', st')) (b : Nat) :
    (∃ n, IsBrush (SideOk e st'.rest) st' b n) ↔
      ∃ p ∈ ts, ∃ l ∈ leafs p.2, native l.contents true ≠ .ok 0 ∧ b ∈ l.brushes := by
  constructor
  · rintro ⟨n, m, d, h1, h2, -⟩
    rcases exportTrees_adds ts h b m n h1 h2 with ⟨m0, g1, g2⟩ | g
    · rw [hs.1 b m0 g1] at g2
      cases g2
    · obtain ⟨l, hl, hb⟩ := List.mem_flatMap.1 g
      obtain ⟨p, hp, hl⟩ := List.mem_flatMap.1 hl
      refine ⟨p, hp, l, hl, ?_⟩
      unfold named at hb
      split at hb
      · simp at hb
      · rename_i hn
        exact ⟨hn, hb⟩
  · rintro ⟨p, hp, l, hl, hn, hb⟩
    have hall := leafs_name hs hr ho h
    have hmem : l ∈ ts.flatMap fun p => leafs p.2 := List.mem_flatMap.2 ⟨p, hp, hl⟩
    obtain ⟨i, hi⟩ := List.mem_iff_getElem?.1 hmem
    obtain ⟨l', -, c, hc, hok⟩ := forall₂_get hall hi
    rw [if_pos ⟨fun h0 => hn (by rw [hc, h0]), List.ne_nil_of_mem hb⟩] at hok
    obtain ⟨j, hj⟩ := List.mem_iff_getElem?.1 hb
    obtain ⟨n, -, hn'⟩ := forall₂_get hok.2.2.2.2 hj
    exact ⟨n, hn'⟩

/-- **C224.** What was written for one model is not changed by later ones: the numbers in the leafs stay right. -/
theorem later_models_keep {s1 : St Side (Nat × Option Nat) (Rest K V F)} (hr : Good (RestOk e) (SideOk e) s1)
    (ho : ∀ p ∈ ts, ∀ s s', RestOk e s → p.1 s = .ok s' → RestOk e s' ∧ RestLe e s s')
    (h : exportTrees (exportSide e) ts s1 = .ok (ts', st')) {b n : Nat} (hb : IsBrush (SideOk e s1.rest) s1 b n) :
    IsBrush (SideOk e st'.rest) st' b n :=
  IsBrush.mono (side_sound e).mono (exportTrees_spec (side_sound e) ts ho hr h).2.1 hb

/-! ### An example -/

/-- Two brushes, of which the second has a side with a texture that is not written, in a tree with an empty leaf, a leaf with both brushes
and one with the second. -/
def exTree : Tree := .node (.leaf ⟨EMPTY, [], 0, 0⟩) (.node (.leaf ⟨SOLID, [1, 0], 0, 0⟩) (.leaf ⟨WATER, [1], 0, 0⟩))

def exEnv : Env ℚ Nat Nat := ⟨id, ⟨fun f => f == 99, fun f => f < 10, [(['a'], 3)]⟩, [(⟨7, 0, 5, 0, none⟩, 0), (⟨8, 0, 99, 0, none⟩, 1), (⟨6, 0, 5, 0, none⟩, 2)], fun _ => 6⟩

def exPlane : Tree.MapPlane ℚ := ⟨⟨⟨1, 0, 0⟩, 4⟩, .x, none⟩

def exStart : St Side (Nat × Option Nat) (Rest ℚ Nat Nat) :=
  ⟨[⟨SOLID, [⟨0, 0⟩, ⟨1, 0⟩], none⟩, ⟨WATER, [⟨1, 1⟩], none⟩], [], [], [],
   ⟨⟨[exPlane, exPlane], [], [], [], [], []⟩, ⟨[⟨⟨7, 0, 5, 0, none⟩, none⟩, ⟨⟨8, 0, 99, 0, none⟩, none⟩, ⟨⟨6, 0, 5, 0, none⟩, none⟩], []⟩⟩⟩

example : Start exStart ∧ RestOk exEnv exStart.rest := by
  have h3 : ∀ (n : Nat) t, exStart.rest.tex.infos[n]? = some t → t.outputnum = none := by
    intro n t h
    rcases n with _ | _ | _ | n <;> simp [exStart] at h <;> subst h <;> rfl
  refine ⟨⟨?_, rfl, rfl, rfl⟩, ⟨?_, ⟨?_, ?_, ?_⟩, ?_⟩⟩
  · intro b m h
    rcases b with _ | _ | b <;> simp [exStart] at h <;> subst h <;> rfl
  · intro n m k h1 h2
    rcases n with _ | _ | n <;> simp [exStart, exPlane] at h1 <;> subst h1 <;> cases h2
  · intro n t i h1 h2
    rw [h3 n t h1] at h2
    cases h2
  · intro n n' t t' i h1 _ h2 _
    rw [h3 n t h1] at h2
    cases h2
  · intro i hi
    exact absurd hi (Nat.not_lt_zero i)
  · intro k n h
    simp only [exEnv, List.mem_cons, Prod.mk.injEq, List.not_mem_nil, or_false] at h
    rcases h with ⟨rfl, rfl⟩ | ⟨rfl, rfl⟩ | ⟨rfl, rfl⟩ <;> exact ⟨_, rfl, rfl, rfl, rfl, rfl⟩

/-- The leaf with both brushes names them in its order, the second leaf names its brush again; of the sides, the texinfo of the one that is
aligned is used, and one side has none. -/
def exResult : List Leaf × List Nat × List (Nat × Option Nat) × List DBrush :=
  match exportTrees (exportSide exEnv) [(.ok, exTree)] exStart with
  | .ok (ts', st') => (ts'.flatMap leafs, st'.dleafbrushes, st'.dsides, st'.dbrushes)
  | _ => ([], [], [], [])

example : exResult = ([⟨EMPTY, [], 0, 0⟩, ⟨SOLID, [1, 0], 0, 2⟩, ⟨WATER, [1], 2, 1⟩], [0, 1, 0], [(0, none), (1, some 0), (0, some 0)],
    [⟨0, 1, 32⟩, ⟨1, 2, 1⟩]) := by
  decide +kernel

end Verif.LeafBrush
