import Verif.DebugExpand.Lemmas

/-! Property C243: the map that `-debugexpand` writes. -/

namespace Verif.DebugExpand

open Verif.Geom Verif.Geom.Spec Verif.NodePortal Spec

set_option linter.unusedSectionVars false

variable {K Tex : Type} [Field K] [LinearOrder K] [IsStrictOrderedRing K]

/-- C243: the map has the brushes and faces of the world in their order. Each face has its texture and three points that span a plane;
behind that plane is exactly what one reaches from behind the face by a vector of the hull. -/
theorem map_expanded (inv : Vec K → K) (hi : LikeInverseLength inv) (extent : K) (he : 0 < extent) (hulls : List (Hull K)) (v : Value K)
    (h : Hull K) (hc : v = .box h ∨ ∃ i, v = .hull i ∧ hulls[i]? = some h) (hh : ∃ u, InHullBox h u)
    (brushes : List (List (Plane K × Tex))) (hu : ∀ b ∈ brushes, ∀ f ∈ b, UnitNormal f.1) :
    ∃ out, expandedMap inv extent hulls (some v) brushes = .ok (some out) ∧
      List.Forall₂ (List.Forall₂ fun f o => o.tex = f.2 ∧ Spans o ∧
        ∀ q, BehindFace o q ↔ ∃ p u, Behind f.1 p ∧ InHullBox h u ∧ q = plus p u) brushes out := by
  have hch : chooseHull hulls v = .ok h := by
    rcases hc with rfl | ⟨i, rfl, hi⟩
    · rfl
    · simp [chooseHull, hi]
  have hb : ∀ b : List (Plane K × Tex), (∀ f ∈ b, UnitNormal f.1) → ∃ o, writeBrush inv extent h b = .ok o ∧
      List.Forall₂ (fun f (o : Face K Tex) => o.tex = f.2 ∧ Spans o ∧
        ∀ q, BehindFace o q ↔ ∃ p u, Behind f.1 p ∧ InHullBox h u ∧ q = plus p u) b o := by
    intro b
    induction b with
    | nil => intro _; exact ⟨[], rfl, .nil⟩
    | cons f fs ih =>
      intro hf
      obtain ⟨o, h1, h2, h3, h4⟩ := writeFace_ok (Tex := Tex) hi he (h := h) (hf f (List.mem_cons_self ..))
      obtain ⟨os, g1, g2⟩ := ih fun g hg => hf g (List.mem_cons_of_mem _ hg)
      exact ⟨o :: os, by simp [writeBrush, h1, g1], .cons ⟨h2, h3, fun q => (h4 q).trans (grown_iff hh q)⟩ g2⟩
  have hbs : ∃ out, writeBrushes inv extent h brushes = .ok out ∧
      List.Forall₂ (List.Forall₂ fun f (o : Face K Tex) => o.tex = f.2 ∧ Spans o ∧
        ∀ q, BehindFace o q ↔ ∃ p u, Behind f.1 p ∧ InHullBox h u ∧ q = plus p u) brushes out := by
    induction brushes with
    | nil => exact ⟨[], rfl, .nil⟩
    | cons b bs ih =>
      obtain ⟨o, h1, h2⟩ := hb b (hu b (List.mem_cons_self ..))
      obtain ⟨os, g1, g2⟩ := ih fun c hc => hu c (List.mem_cons_of_mem _ hc)
      exact ⟨o :: os, by simp [writeBrushes, h1, g1], .cons h2 g2⟩
  obtain ⟨out, h1, h2⟩ := hbs
  exact ⟨out, by simp [expandedMap, hch, h1], h2⟩

/-- C243: a written brush contains all that one reaches from its brush by a vector of the hull. -/
theorem brush_contained (inv : Vec K → K) (hi : LikeInverseLength inv) (extent : K) (he : 0 < extent) (hulls : List (Hull K)) (h : Hull K)
    (brushes : List (List (Plane K × Tex))) (hu : ∀ b ∈ brushes, ∀ f ∈ b, UnitNormal f.1) (out : List (List (Face K Tex)))
    (ho : expandedMap inv extent hulls (some (.box h)) brushes = .ok (some out)) (i : Nat) (b : List (Plane K × Tex))
    (o : List (Face K Tex)) (hb : brushes[i]? = some b) (hoi : out[i]? = some o) (p u : Vec K) (hp : ∀ f ∈ b, Behind f.1 p)
    (hv : InHullBox h u) : ∀ f ∈ o, BehindFace f (plus p u) := by
  obtain ⟨out', h1, h2⟩ := map_expanded inv hi extent he hulls (.box h) h (.inl rfl) ⟨u, hv⟩ brushes hu
  rw [ho] at h1
  simp only [Outcome.ok.injEq, Option.some.injEq] at h1
  subst h1
  have hf : List.Forall₂ (fun f (o : Face K Tex) => o.tex = f.2 ∧ Spans o ∧
        ∀ q, BehindFace o q ↔ ∃ p u, Behind f.1 p ∧ InHullBox h u ∧ q = plus p u) b o := by
    clear ho hu
    induction h2 generalizing i with
    | nil => simp at hb
    | cons hx _ ih =>
      cases i with
      | zero =>
        simp only [List.getElem?_cons_zero, Option.some.injEq] at hb hoi
        subst hb hoi
        exact hx
      | succ i => exact ih i (by simpa using hb) (by simpa using hoi)
  clear hb hoi h2 ho hu
  induction hf with
  | nil => simp
  | cons hx _ ih =>
    intro g hg
    rcases List.mem_cons.mp hg with rfl | hg
    · exact (hx.2.2 _).mpr ⟨p, u, hp _ (List.mem_cons_self ..), hv, rfl⟩
    · exact ih (fun f hf => hp f (List.mem_cons_of_mem _ hf)) g hg

/-- C243: nothing is written without the option, and the number of a hull that the game does not have is an error. -/
theorem no_map (inv : Vec K → K) (extent : K) (hulls : List (Hull K)) (brushes : List (List (Plane K × Tex))) :
    expandedMap inv extent hulls none brushes = .ok none ∧
    ∀ i, hulls.length ≤ i → expandedMap inv extent hulls (some (.hull i)) brushes = .error := by
  refine ⟨rfl, fun i hi => ?_⟩
  simp only [expandedMap, chooseHull, List.getElem?_eq_none hi]
  rfl

/-- C243: six numbers are a box, and one number that no number follows is the number of a hull; the words behind them are left. -/
theorem values_read (toByte : K → Outcome Nat) (ws : List (Option K)) :
    (∀ a b c d e f, parse toByte (some a :: some b :: some c :: some d :: some e :: some f :: ws) =
      .ok (some (.box ⟨⟨a, b, c⟩, ⟨d, e, f⟩⟩), ws)) ∧
    (∀ a i, ws.head? = some none → toByte a = .ok i → parse toByte (some a :: ws) = .ok (some (.hull i), ws)) ∧
    (∀ a i, toByte a = .ok i → parse toByte [some a] = .ok (some (.hull i), [])) := by
  refine ⟨fun _ _ _ _ _ _ => rfl, fun a i h hb => ?_, fun a i hb => ?_⟩
  · cases ws with
    | nil => simp at h
    | cons w ws =>
      simp only [List.head?_cons, Option.some.injEq] at h
      subst h
      simp [parse, readNumbers, hb]
  · simp [parse, readNumbers, hb]

/-- C243 fails for a hull number before a file whose name begins like a number (`-debugexpand 1 2fort.map`): the name is read as a
number, and the option fails. -/
theorem digit_file (toByte : K → Outcome Nat) (index name : K) :
    parse toByte [some index, some name] = .ok (none, []) := rfl

/-- A cube of size 2 around the origin with a hull of the game. -/
example :
    let n : List (Plane Rat × Nat) := [(⟨⟨1, 0, 0⟩, 1⟩, 7), (⟨⟨-1, 0, 0⟩, 1⟩, 7)]
    let h : Hull Rat := ⟨⟨-16, -16, -32⟩, ⟨16, 16, 24⟩⟩
    (∀ f ∈ n, UnitNormal f.1) ∧ InHullBox h ⟨1, 2, 3⟩ ∧ grown ⟨⟨1, 0, 0⟩, 1⟩ h = ⟨⟨1, 0, 0⟩, 17⟩ ∧
      LikeInverseLength (fun _ : Vec Rat => 1) := by
  refine ⟨?_, ?_, by decide +kernel, fun _ _ => one_pos⟩
  · simp [UnitNormal, dot]
  · unfold InHullBox; decide +kernel

end Verif.DebugExpand
