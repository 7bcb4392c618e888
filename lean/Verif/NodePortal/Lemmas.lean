import Verif.NodePortal.Spec
import Verif.Geom.ClipProps

/-! Lemmas about polygons that are clipped by many planes. -/

namespace Verif.NodePortal

open Verif.Geom Verif.Geom.Spec Spec

set_option linter.unusedSectionVars false

variable {K : Type} [Field K] [LinearOrder K] [IsStrictOrderedRing K]

/-- Clipping by planes, each with its tolerance: what is in front of all of them is left. -/
inductive Steps : List (Plane K × K) → List (Vec K) → Option (List (Vec K)) → Prop
  | nil {w} : Steps [] w (some w)
  | stop {pl eps cs w} : (∀ p ∈ w, sideOf eps (pl.distTo p) ≠ .front) → Steps ((pl, eps) :: cs) w none
  | cons {pl eps cs w m r} : Part pl eps w m → Steps cs m r → Steps ((pl, eps) :: cs) w r

/-- The planes have normals of length 1 and the tolerances are not negative. -/
def Fine (cs : List (Plane K × K)) : Prop := ∀ c ∈ cs, UnitNormal c.1 ∧ 0 ≤ c.2

theorem onSeg_dist_ge {pl : Plane K} {x p q : Vec K} {d : K} (h : OnSeg x p q) (hp : d ≤ pl.distTo p) (hq : d ≤ pl.distTo q) :
    d ≤ pl.distTo x := by
  have := onSeg_dist_le (pl := pl.neg) (d := -d) h (by rw [neg_distTo]; linarith) (by rw [neg_distTo]; linarith)
  rw [neg_distTo] at this
  linarith

theorem onSeg_trans {x a b p q : Vec K} (h : OnSeg x a b) (ha : OnSeg a p q) (hb : OnSeg b p q) : OnSeg x p q := by
  obtain ⟨t, t0, t1, rfl⟩ := h
  obtain ⟨u, u0, u1, rfl⟩ := ha
  obtain ⟨v, v0, v1, rfl⟩ := hb
  refine ⟨u + t * (v - u), ?_, ?_, ?_⟩
  · nlinarith [mul_nonneg t0 v0, mul_nonneg (sub_nonneg.2 t1) u0]
  · nlinarith [mul_nonneg t0 (sub_nonneg.2 v1), mul_nonneg (sub_nonneg.2 t1) (sub_nonneg.2 u1)]
  · simp only [along, Vec.mk.injEq]
    refine ⟨by ring, by ring, by ring⟩

theorem part_keeps_bound {pl q : Plane K} {eps c : K} (he : 0 ≤ eps) (hu : UnitNormal pl) {w f : List (Vec K)}
    (h : Part pl eps w f) (hw : ∀ v ∈ w, c ≤ q.distTo v) : ∀ v ∈ f, c ≤ q.distTo v := by
  intro v hv
  rcases (part_vertices he hu h v hv).2 with h | ⟨o, ho, hs⟩
  · exact hw v h
  · obtain ⟨m1, m2⟩ := mem_edges ho
    exact onSeg_dist_ge (split_onSeg hs) (hw _ m1) (hw _ m2)

theorem steps_bound {q : Plane K} {c : K} {cs : List (Plane K × K)} (hf : Fine cs) {w f : List (Vec K)} (h : Steps cs w (some f))
    (hw : ∀ v ∈ w, c ≤ q.distTo v) : ∀ v ∈ f, c ≤ q.distTo v := by
  generalize hr : some f = r at h
  induction h with
  | nil => cases hr; exact hw
  | stop => cases hr
  | @cons pl eps cs w m r hp _ ih =>
    obtain ⟨hu, he⟩ := hf _ (List.mem_cons_self ..)
    exact ih (fun c hc => hf c (List.mem_cons_of_mem _ hc)) (part_keeps_bound he hu hp hw) hr

theorem steps_inside {cs : List (Plane K × K)} (hf : Fine cs) {w f : List (Vec K)} (h : Steps cs w (some f)) :
    ∀ c ∈ cs, ∀ v ∈ f, -c.2 ≤ c.1.distTo v := by
  generalize hr : some f = r at h
  induction h with
  | nil => simp
  | stop => cases hr
  | @cons pl eps cs w m r hp hs ih =>
    obtain ⟨hu, he⟩ := hf _ (List.mem_cons_self ..)
    have hf' : Fine cs := fun c hc => hf c (List.mem_cons_of_mem _ hc)
    intro c hc
    rcases List.mem_cons.mp hc with rfl | hc
    · subst hr
      exact steps_bound hf' hs fun v hv => (part_vertices he hu hp v hv).1
    · exact ih hf' hr c hc

theorem steps_edges {cs : List (Plane K × K)} (hf : Fine cs) {w f : List (Vec K)} (h : Steps cs w (some f)) :
    ∀ e ∈ edges f, (∃ o ∈ edges w, PartOf e o) ∨ ∃ c ∈ cs, Along c.1 c.2 e := by
  generalize hr : some f = r at h
  induction h with
  | nil => cases hr; exact fun e he => .inl ⟨e, he, onSeg_left _ _, onSeg_right _ _⟩
  | stop => cases hr
  | @cons pl eps cs w m r hp hs ih =>
    obtain ⟨hu, he⟩ := hf _ (List.mem_cons_self ..)
    intro e hee
    rcases ih (fun c hc => hf c (List.mem_cons_of_mem _ hc)) hr e hee with ⟨o, ho, h1, h2⟩ | ⟨c, hc, h⟩
    · rcases part_edges he hu hp o ho with ⟨o', ho', g1, g2⟩ | ⟨⟨a, b⟩, c, d⟩
      · exact .inl ⟨o', ho', onSeg_trans h1 g1 g2, onSeg_trans h2 g1 g2⟩
      · exact .inr ⟨(pl, eps), List.mem_cons_self .., abs_le.2 ⟨onSeg_dist_ge h1 a c, onSeg_dist_le h1 b d⟩,
          abs_le.2 ⟨onSeg_dist_ge h2 a c, onSeg_dist_le h2 b d⟩⟩
    · exact .inr ⟨c, List.mem_cons_of_mem _ hc, h⟩

theorem steps_covers {cs : List (Plane K × K)} (hf : Fine cs) {w : List (Vec K)} {r : Option (List (Vec K))} (h : Steps cs w r)
    {o : Vec K × Vec K} (ho : o ∈ edges w) {x : Vec K} (hx : OnSeg x o.1 o.2) (hd : ∀ c ∈ cs, c.2 < c.1.distTo x) :
    ∃ f, r = some f ∧ ∃ e ∈ edges f, OnSeg x e.1 e.2 := by
  induction h generalizing o with
  | nil => exact ⟨_, rfl, o, ho, hx⟩
  | @stop pl eps cs w hn =>
    exfalso
    have h1 := hd _ (List.mem_cons_self ..)
    have hv : ∀ p ∈ w, pl.distTo p ≤ eps := by
      intro p hp
      have := hn p hp
      unfold sideOf at this
      by_contra hlt
      exact this (if_pos (not_le.mp hlt))
    obtain ⟨m1, m2⟩ := mem_edges ho
    have := onSeg_dist_le hx (hv _ m1) (hv _ m2)
    simp only at h1
    linarith
  | @cons pl eps cs w m r hp hs ih =>
    obtain ⟨hu, he⟩ := hf _ (List.mem_cons_self ..)
    obtain ⟨e, he', hx'⟩ := part_covers he hu hp o ho x hx (hd _ (List.mem_cons_self ..))
    exact ih (fun c hc => hf c (List.mem_cons_of_mem _ hc)) he' hx' fun c hc => hd c (List.mem_cons_of_mem _ hc)

/-- The plane that faces the side. -/
def facing (pl : Plane K) (side : Bool) : Plane K := if side then pl else pl.neg

theorem facing_dist (pl : Plane K) (side : Bool) (p : Vec K) : (facing pl side).distTo p = depth pl side p := by
  cases side <;> simp [facing, depth, neg_distTo]

theorem facing_unit {pl : Plane K} (h : UnitNormal pl) (side : Bool) : UnitNormal (facing pl side) := by
  cases side
  · exact neg_unit h
  · exact h

theorem along_facing {pl : Plane K} {side : Bool} {eps : K} {e : Vec K × Vec K} : Along (facing pl side) eps e ↔ Along pl eps e := by
  cases side <;> simp [Along, facing, neg_distTo]

theorem steps_append {cs ds : List (Plane K × K)} {w m : List (Vec K)} {r : Option (List (Vec K))} (h : Steps cs w (some m))
    (h' : Steps ds m r) : Steps (cs ++ ds) w r := by
  generalize hr : some m = q at h
  induction h with
  | nil => cases hr; exact h'
  | stop => cases hr
  | cons hp _ ih => exact .cons hp (ih hr)

theorem steps_none {cs ds : List (Plane K × K)} {w : List (Vec K)} (h : Steps cs w none) : Steps (cs ++ ds) w none := by
  generalize hr : (none : Option (List (Vec K))) = q at h
  induction h with
  | nil => cases hr
  | stop hn => exact .stop hn
  | cons hp _ ih => exact .cons hp (ih hr)

theorem front_eq (pl : Plane K) (eps : K) (w : List (Vec K)) : clipFront pl eps false w = (clip pl eps false w).1 := by
  rw [clip_front_back_agree]

theorem back_eq (pl : Plane K) (eps : K) (w : List (Vec K)) : clipBack pl eps false w = (clip pl eps false w).2 := by
  rw [clip_front_back_agree]

theorem clipAbove_none (l : List (Plane K × Bool)) : clipAbove l none = none := by cases l <;> rfl

theorem clipAround_none (l : List (Around K)) : clipAround l none = .ok none := by cases l <;> rfl

theorem front_step {pl : Plane K} {eps : K} {cs : List (Plane K × K)} {w : List (Vec K)} {k : Option (List (Vec K)) → Option (List (Vec K))}
    (hk : k none = none) (h : ∀ m, Steps cs m (k (some m))) : Steps ((pl, eps) :: cs) w (k (clipFront pl eps false w)) := by
  rw [front_eq]
  cases hc : (clip pl eps false w).1 with
  | none => rw [hk]; exact .stop (clip_front_none hc)
  | some m => exact .cons (clip_front_part hc) (h m)

theorem back_step {pl : Plane K} {eps : K} (he : 0 ≤ eps) {cs : List (Plane K × K)} {w : List (Vec K)}
    {k : Option (List (Vec K)) → Option (List (Vec K))}
    (hk : k none = none) (h : ∀ m, Steps cs m (k (some m))) : Steps ((pl.neg, eps) :: cs) w (k (clipBack pl eps false w)) := by
  rw [back_eq]
  cases hc : (clip pl eps false w).2 with
  | none =>
    rw [hk]
    refine .stop fun p hp => ?_
    have := clip_back_none hc p hp
    rw [neg_distTo, side_neg he]
    cases hs : sideOf eps (pl.distTo p) <;> simp_all
  | some m => exact .cons (clip_back_part he hc) (h m)

theorem above_steps (l : List (Plane K × Bool)) (w : List (Vec K)) :
    Steps (l.map fun c => (facing c.1 c.2, 1 / 1000)) w (clipAbove l (some w)) := by
  have he : (0 : K) ≤ 1 / 1000 := by positivity
  induction l generalizing w with
  | nil => exact .nil
  | cons c l ih =>
    obtain ⟨pl, s⟩ := c
    cases s
    · exact back_step he (clipAbove_none l) ih
    · exact front_step (clipAbove_none l) ih

/-- Clipping by the portals around a node: either a portal is not linked to it, or all planes clip. -/
theorem around_steps (l : List (Around K)) (w : List (Vec K)) {r : Option (List (Vec K))} (h : clipAround l (some w) = .ok r) :
    (∀ f, r = some f → ∀ p ∈ l, p.inFront ≠ none) ∧
    ∃ cs, Steps cs w r ∧ (∀ c ∈ cs, ∃ p ∈ l, ∃ s, p.inFront = some s ∧ c = (facing p.plane s, 1 / 10)) ∧
      (∀ f, r = some f → ∀ p ∈ l, ∀ s, p.inFront = some s → (facing p.plane s, 1 / 10) ∈ cs) := by
  induction l generalizing w with
  | nil =>
    simp only [clipAround, Outcome.ok.injEq] at h
    subst h
    exact ⟨by simp, [], .nil, by simp, by simp⟩
  | cons p l ih =>
    have key : ∀ s, p.inFront = some s → clipAround l (clipFront (facing p.plane s) (1 / 10) false w) = .ok r →
        (∀ f, r = some f → ∀ q ∈ p :: l, q.inFront ≠ none) ∧
        ∃ cs, Steps cs w r ∧ (∀ c ∈ cs, ∃ q ∈ p :: l, ∃ s, q.inFront = some s ∧ c = (facing q.plane s, 1 / 10)) ∧
          (∀ f, r = some f → ∀ q ∈ p :: l, ∀ s, q.inFront = some s → (facing q.plane s, 1 / 10) ∈ cs) := by
      intro s hs h
      rw [front_eq] at h
      cases hc : (clip (facing p.plane s) (1 / 10) false w).1 with
      | none =>
        rw [hc, clipAround_none] at h
        simp only [Outcome.ok.injEq] at h
        subst h
        exact ⟨by simp, [(facing p.plane s, 1 / 10)], .stop (clip_front_none hc), fun c hcc => ⟨p, List.mem_cons_self .., s, hs, by simpa using hcc⟩, by simp⟩
      | some m =>
        rw [hc] at h
        obtain ⟨h1, cs, h2, h3, h4⟩ := ih m h
        refine ⟨?_, (facing p.plane s, 1 / 10) :: cs, .cons (clip_front_part hc) h2, ?_, ?_⟩
        · intro f hf q hq
          rcases List.mem_cons.mp hq with rfl | hq
          · simp [hs]
          · exact h1 f hf q hq
        · intro c hcc
          rcases List.mem_cons.mp hcc with rfl | hcc
          · exact ⟨p, List.mem_cons_self .., s, hs, rfl⟩
          · obtain ⟨q, hq, t⟩ := h3 c hcc
            exact ⟨q, List.mem_cons_of_mem _ hq, t⟩
        · intro f hf q hq s' hs'
          rcases List.mem_cons.mp hq with rfl | hq
          · rw [hs] at hs'
            cases hs'
            exact List.mem_cons_self ..
          · exact List.mem_cons_of_mem _ (h4 f hf q hq s' hs')
    rw [clipAround] at h
    cases hp : p.inFront with
    | none => rw [hp] at h; simp at h
    | some s =>
      rw [hp] at h
      cases s
      · exact key false hp h
      · exact key true hp h

theorem above_mem {t : Tree K} {way : List Bool} {pl : Plane K} {s : Bool} (h : BoundedBy t way pl s) : (pl, s) ∈ above t way := by
  obtain ⟨start, rest, f, b, rfl, h⟩ := h
  induction start generalizing t with
  | nil =>
    simp only [Tree.sub, Option.some.injEq] at h
    subst h
    simp [above]
  | cons u start ih =>
    cases t with
    | leaf => simp [Tree.sub] at h
    | node q f' b' =>
      simp only [List.cons_append, above, List.mem_append]
      refine .inl (ih ?_)
      cases u <;> simpa [Tree.sub] using h

theorem mem_above {t : Tree K} {way : List Bool} {pl : Plane K} {s : Bool} (h : (pl, s) ∈ above t way) : BoundedBy t way pl s := by
  induction way generalizing t with
  | nil => cases t <;> simp [above] at h
  | cons u way ih =>
    cases t with
    | leaf => simp [above] at h
    | node q f b =>
      simp only [above, List.mem_append, List.mem_singleton, Prod.mk.injEq] at h
      rcases h with h | ⟨rfl, rfl⟩
      · obtain ⟨start, rest, f', b', e, h⟩ := ih h
        refine ⟨u :: start, rest, f', b', by rw [e]; rfl, ?_⟩
        cases u <;> simpa [Tree.sub] using h
      · exact ⟨[], way, f, b, rfl, rfl⟩

theorem sub_unit {t : Tree K} (h : UnitTree t) {way : List Bool} {pl : Plane K} {f b : Tree K} (hs : t.sub way = some (.node pl f b)) :
    UnitNormal pl := by
  induction way generalizing t with
  | nil =>
    simp only [Tree.sub, Option.some.injEq] at hs
    subst hs
    exact h.1
  | cons u way ih =>
    cases t with
    | leaf => simp [Tree.sub] at hs
    | node q f' b' =>
      cases u
      · exact ih h.2.2 (by simpa [Tree.sub] using hs)
      · exact ih h.2.1 (by simpa [Tree.sub] using hs)

theorem bounded_unit {t : Tree K} (h : UnitTree t) {way : List Bool} {pl : Plane K} {s : Bool} (hb : BoundedBy t way pl s) :
    UnitNormal pl := by
  obtain ⟨start, rest, f, b, -, hs⟩ := hb
  exact sub_unit h hs

/-- All points of the winding of a plane lie on it. -/
theorem fromPlane_on (inv : Vec K → K) {pl : Plane K} (hu : UnitNormal pl) (extent : K) :
    ∀ v ∈ fromPlane inv pl extent, pl.distTo v = 0 := by
  have key : ∀ (a : Vec K) (c : K) (r u : K),
      let n := pl.normal
      let up := times (plus a (times n (-(dot a n)))) c
      ∀ v, v = plus (plus (times n pl.dist) (times (times (cross up n) extent) r)) (times (times up extent) u) → pl.distTo v = 0 := by
    intro a c r u n up v hv
    subst hv
    have h1 : n.x * n.x + n.y * n.y + n.z * n.z = 1 := hu
    simp only [Plane.distTo, dot, plus, times, cross, up]
    change _ - pl.dist = 0
    linear_combination (pl.dist - u * extent * c * (a.x * n.x + a.y * n.y + a.z * n.z)) * h1
  intro v hv
  simp only [fromPlane, List.mem_cons, List.not_mem_nil, or_false] at hv
  rcases hv with rfl | rfl | rfl | rfl
  · refine key (upAxis pl.normal) (inv (plus (upAxis pl.normal) (times pl.normal (-(dot (upAxis pl.normal) pl.normal))))) (-1) 1 _ ?_
    simp only [plus, minus, times, Vec.mk.injEq]; refine ⟨by ring, by ring, by ring⟩
  · refine key (upAxis pl.normal) (inv (plus (upAxis pl.normal) (times pl.normal (-(dot (upAxis pl.normal) pl.normal))))) 1 1 _ ?_
    simp only [plus, minus, times, Vec.mk.injEq]; refine ⟨by ring, by ring, by ring⟩
  · refine key (upAxis pl.normal) (inv (plus (upAxis pl.normal) (times pl.normal (-(dot (upAxis pl.normal) pl.normal))))) 1 (-1) _ ?_
    simp only [plus, minus, times, Vec.mk.injEq]; refine ⟨by ring, by ring, by ring⟩
  · refine key (upAxis pl.normal) (inv (plus (upAxis pl.normal) (times pl.normal (-(dot (upAxis pl.normal) pl.normal))))) (-1) (-1) _ ?_
    simp only [plus, minus, times, Vec.mk.injEq]; refine ⟨by ring, by ring, by ring⟩

end Verif.NodePortal
