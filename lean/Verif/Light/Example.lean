import Verif.Light.Props
import Verif.Light.LumpProps

/-!
Examples for the lightmap data, and what goes wrong with supplementary data.
-/

namespace Verif.Light

/-! ### General statements about what goes wrong -/

/-- **C113 (finding).** With supplementary data, a face whose lightmap has the scale of its
model, or any face with `-novanilla`, never refers to its lightmap itself: its offset in the
BSP file is -1, because it is copied before it is known. -/
theorem sup_face_unlit {c : Cfg} {fs : List Face} {r : Result} (hrun : Run c fs (.ok r))
    {i : Nat} {f : Face} {s : Surf} (hf : fs[i]? = some f) (hs : f.surf = some s)
    (hm : mode c f = .sup) : ∃ o, r.outs[i]? = some o ∧ o.face.lightofs = -1 := by
  cases hrun with
  | done t1 g total ps t2 hok h1 hgr hp h2 =>
    obtain ⟨hlen, hps⟩ := progs_spec _ _ _ hp
    obtain ⟨p, hpi, hfp⟩ := hps i f hf
    have hc : c.sup = true := by
      unfold mode at hm
      cases h : c.sup with
      | true => rfl
      | false => rw [h] at hm; cases h' : c.decoupled <;> rw [h'] at hm <;> simp at hm
    refine ⟨p.2, by simp [hpi], ?_⟩
    have hi : (initOut c f).sup.lightofs = -1 := by unfold initOut; rw [hc]; rfl
    unfold faceProg at hfp
    rw [hs, hm] at hfp
    simp only [hi, ite_self] at hfp
    split at hfp
    · simp only [Outcome.ok.injEq] at hfp
      rw [← hfp]
    · obtain ⟨⟨ofs, st1⟩, h1, hfp⟩ := Outcome.bind_eq_ok.1 hfp
      simp only [Outcome.pure_eq, Outcome.ok.injEq] at hfp
      rw [← hfp]

/-- **C113 (finding).** A face that gets a lightmap in two sizes refers to the same place for
both of them. -/
theorem both_same_offset {c : Cfg} {fs : List Face} {r : Result} (hrun : Run c fs (.ok r))
    {i : Nat} {f : Face} {s : Surf} (hf : fs[i]? = some f) (hs : f.surf = some s)
    (hk : faceKept c f s ≠ []) (hm : mode c f = .both) :
    ∃ o, r.outs[i]? = some o ∧ o.face.lightofs = o.sup.lightofs := by
  cases hrun with
  | done t1 g total ps t2 hok h1 hgr hp h2 =>
    obtain ⟨hlen, hps⟩ := progs_spec _ _ _ hp
    obtain ⟨p, hpi, hfp⟩ := hps i f hf
    refine ⟨p.2, by simp [hpi], ?_⟩
    have hne : (faceKept c f s).isEmpty = false := by simpa using hk
    unfold faceProg at hfp
    rw [hs, hm] at hfp
    simp only [hne, Bool.false_eq_true, if_false] at hfp
    obtain ⟨⟨ofs, st1⟩, h3, hfp⟩ := Outcome.bind_eq_ok.1 hfp
    obtain ⟨⟨ofs', st2⟩, h4, hfp⟩ := Outcome.bind_eq_ok.1 hfp
    obtain ⟨v, hv, rfl, rfl⟩ := saveData_ok h3
    obtain ⟨v', hv', rfl, rfl⟩ := saveData_ok h4
    simp only [Outcome.pure_eq, Outcome.ok.injEq] at hfp
    rw [← hfp]
    have : v' = v := by omega
    rw [this]

namespace Ex

def img (n : Nat) (x : UInt8) : Image :=
  ⟨List.replicate n x, List.replicate (3 * n) x, List.replicate (3 * n) x⟩

theorem img_sized (n : Nat) (x : UInt8) : (img n x).Sized n := by
  simp [Image.Sized, img]

def lm (style : Nat) (avg : ℚ) (size vsize : Nat) (x : UInt8) : Lightmap :=
  ⟨style, avg, avg + 1, img size x, img vsize (x + 100), img vsize (x + 50)⟩

def mkFace (size vsize : Nat) (eq : Bool) (l : List Lightmap) : Face :=
  ⟨some ⟨l, lm 0 0 size vsize 0, size, vsize⟩, eq, ⟨1000, [7, 255, 255, 255]⟩⟩

theorem mkFace_sized {size vsize : Nat} {eq : Bool} {l : List (Nat × ℚ × UInt8)} :
    ∀ s, (mkFace size vsize eq (l.map fun e => lm e.1 e.2.1 size vsize e.2.2)).surf = some s →
      s.blank.Sized s ∧ ∀ x ∈ s.lightmaps, x.Sized s := by
  have key : ∀ (a : Nat) (b : ℚ) (x : UInt8) (s : Surf), s.size = size → s.vsize = vsize →
      (lm a b size vsize x).Sized s := by
    intro a b x s h1 h2
    refine ⟨?_, ?_, ?_⟩
    · rw [h1]; exact img_sized _ _
    · rw [h2]; exact img_sized _ _
    · rw [h2]; exact img_sized _ _
  intro s hs
  simp only [mkFace, Option.some.injEq] at hs
  subst hs
  refine ⟨key _ _ _ _ rfl rfl, ?_⟩
  intro x hx
  obtain ⟨e, _, rfl⟩ := List.mem_map.1 hx
  exact key _ _ _ _ rfl rfl

/-- Quake, with a .lit file. -/
def quake : Cfg :=
  { decoupled := false, sup := false, novanilla := false, rgb := false, lit := true, lux := false,
    q2 := false, facestyles := 4 }

/-- Three faces; the second one has lights of two styles, and the third one has no samples. -/
def three : List Face :=
  [ mkFace 2 2 true [lm 0 10 2 2 1],
    mkFace 3 3 true [lm 0 5 3 3 2, lm 32 20 3 3 3],
    ⟨none, true, ⟨1000, [7, 255, 255, 255]⟩⟩ ]

theorem three_sized : Sized three := by
  intro f hf s hs
  simp only [three, List.mem_cons, List.not_mem_nil, or_false] at hf
  rcases hf with rfl | rfl | rfl
  · exact mkFace_sized (l := [(0, 10, 1)]) s hs
  · exact mkFace_sized (l := [(0, 5, 2), (32, 20, 3)]) s hs
  · simp at hs

theorem three_tame (c : Cfg) (h : c.sup = false) : Tame c three := by
  intro f _ hm
  unfold mode at hm
  rw [h] at hm
  cases h' : c.decoupled <;> rw [h'] at hm <;> simp at hm

/-- The program of the tasks, one after the other in the order `order`. -/
def inOrder {α : Type} (ps : List (List α)) (order : List Nat) : List (Nat × α) :=
  order.flatMap fun i => (ps.getD i []).map fun a => (i, a)

theorem inOrder_interleaves {α : Type} (ps : List (List α)) (order : List Nat)
    (hn : order.Nodup) (hall : ∀ i, i < ps.length → i ∈ order) :
    Interleaves ps (inOrder ps order) := by
  have key : ∀ (order : List Nat), order.Nodup → ∀ i,
      ((inOrder ps order).filter (fun e => decide (e.1 = i))).map Prod.snd =
        if i ∈ order then ps.getD i [] else [] := by
    intro order
    induction order with
    | nil => intro _ i; simp [inOrder]
    | cons k order ih =>
      intro hn i
      rw [List.nodup_cons] at hn
      have h2 := ih hn.2 i
      have h3 : inOrder ps (k :: order) = ((ps.getD k []).map fun a => (k, a)) ++ inOrder ps order := by
        simp [inOrder]
      rw [h3, List.filter_append, List.map_append, h2, List.filter_map, List.map_map]
      by_cases hik : k = i
      · subst hik
        have h4 : (ps.getD k []).filter ((fun e : Nat × α => decide (e.1 = k)) ∘ fun a => (k, a)) =
            ps.getD k [] := by
          rw [List.filter_eq_self]; intro a _; simp
        rw [h4, if_neg hn.1, if_pos List.mem_cons_self, List.append_nil]
        show List.map id _ = _
        rw [List.map_id]
      · have h4 : (ps.getD k []).filter ((fun e : Nat × α => decide (e.1 = i)) ∘ fun a => (k, a)) =
            [] := by
          rw [List.filter_eq_nil_iff]; intro a _; simp [hik]
        rw [h4]
        have : (i ∈ k :: order) ↔ i ∈ order := by
          rw [List.mem_cons]
          constructor
          · rintro (h | h)
            · exact absurd h.symm hik
            · exact h
          · exact Or.inr
        simp [this]
  intro i
  rw [key order hn i]
  split
  · rfl
  · rename_i h
    rw [List.getD_eq_getElem?_getD, List.getElem?_eq_none]
    · rfl
    · by_contra hlt
      exact h (hall i (by omega))

/-- An execution that takes the faces in the order `o1` in the first loop and `o2` in the second
one, computed. -/
def exec (c : Cfg) (fs : List Face) (o1 o2 : List Nat) : Option (Nat × Mem × List Out) :=
  match grant 0 (inOrder (fs.map (requests c)) o1) with
  | .ok (g, total) =>
    match progs c total g 0 fs with
    | .ok ps => some (total, runStores (fun _ _ => 0) ((inOrder (ps.map Prod.fst) o2).map Prod.snd),
        ps.map Prod.snd)
    | _ => none
  | _ => none

theorem exec_run {c : Cfg} {fs : List Face} {o1 o2 : List Nat} {total : Nat} {m : Mem}
    {outs : List Out} (h : exec c fs o1 o2 = some (total, m, outs))
    (hst : fs.all (stylesOk c) = true) (h1 : o1.Nodup) (h1' : ∀ i, i < fs.length → i ∈ o1)
    (h2 : o2.Nodup) (h2' : ∀ i, i < fs.length → i ∈ o2) : Run c fs (.ok ⟨total, m, outs⟩) := by
  unfold exec at h
  split at h
  · rename_i g total' hg
    split at h
    · rename_i ps hp
      simp only [Option.some.injEq, Prod.mk.injEq] at h
      obtain ⟨rfl, rfl, rfl⟩ := h
      have hlen := (progs_spec _ _ _ hp).1
      exact .done _ g total' ps _ hst (inOrder_interleaves _ _ h1 (by simpa using h1')) hg hp
        (inOrder_interleaves _ _ h2 (by simpa [hlen] using h2'))
    · simp at h
  · simp at h

/-- The computed execution and the fields of the faces. -/
def fields (c : Cfg) (fs : List Face) (o1 o2 : List Nat) : Option (Nat × List Out) :=
  (exec c fs o1 o2).map fun x => (x.1, x.2.2)

/-- The bytes at the beginning of an array. -/
def dump (c : Cfg) (fs : List Face) (o1 o2 : List Nat) (b : Buf) (n : Nat) : Option (List UInt8) :=
  (exec c fs o1 o2).map fun x => (List.range n).map (x.2.1 b)

example : dump quake three [0, 1, 2] [1, 0, 2] .grey 12 =
    some [1, 1, 0, 0, 3, 3, 3, 2, 2, 2, 0, 0] := by decide +kernel

example : fields quake three [0, 1, 2] [1, 0, 2] = some (12,
    [ ⟨⟨0, [0, 255, 255, 255]⟩, ⟨0, List.replicate 16 0⟩, 0⟩,
      ⟨⟨4, [32, 0, 255, 255]⟩, ⟨0, List.replicate 16 0⟩, 0⟩,
      ⟨⟨-1, [255, 255, 255, 255]⟩, ⟨0, List.replicate 16 0⟩, 0⟩ ]) := by decide +kernel

/-- The hypotheses of the theorems about the lightmap data are met. -/
example : ∃ r, Run quake three (.ok r) ∧ Sized three ∧ Tame quake three ∧
    three.all (stylesOk quake) = true ∧ space quake three * 3 ≤ INT_MAX := by
  have hst : three.all (stylesOk quake) = true := by decide +kernel
  have hsp : space quake three * 3 ≤ INT_MAX := by decide +kernel
  obtain ⟨x, hx⟩ := run_exists quake three
  obtain ⟨r, rfl⟩ := save_succeeds hx hst three_sized (three_tame _ rfl) hsp
  exact ⟨r, hx, three_sized, three_tame _ rfl, hst, hsp⟩

/-- With `-world_units_per_luxel` there are two sets of lightmaps. -/
def decoupled : Cfg := { quake with decoupled := true }

example : ∃ r, Run decoupled three (.ok r) := by
  have hst : three.all (stylesOk decoupled) = true := by decide +kernel
  obtain ⟨x, hx⟩ := run_exists decoupled three
  obtain ⟨r, rfl⟩ := save_succeeds hx hst three_sized (three_tame _ rfl) (by decide +kernel)
  exact ⟨r, hx⟩

example : fields decoupled three [0, 1, 2] [0, 1, 2] = some (24,
    [ ⟨⟨0, [0, 255, 255, 255]⟩, ⟨0, List.replicate 16 0⟩, 4⟩,
      ⟨⟨8, [32, 0, 255, 255]⟩, ⟨0, List.replicate 16 0⟩, 16⟩,
      ⟨⟨-1, [255, 255, 255, 255]⟩, ⟨0, List.replicate 16 0⟩, -1⟩ ]) := by decide +kernel

theorem fields_run {c : Cfg} {fs : List Face} {o1 o2 : List Nat} {total : Nat} {outs : List Out}
    (h : fields c fs o1 o2 = some (total, outs))
    (hst : fs.all (stylesOk c) = true) (h1 : o1.Nodup) (h1' : ∀ i, i < fs.length → i ∈ o1)
    (h2 : o2.Nodup) (h2' : ∀ i, i < fs.length → i ∈ o2) :
    ∃ m, exec c fs o1 o2 = some (total, m, outs) ∧ Run c fs (.ok ⟨total, m, outs⟩) := by
  unfold fields at h
  obtain ⟨⟨t, m, o⟩, hx, hx'⟩ := Option.map_eq_some_iff.1 h
  simp only [Prod.mk.injEq] at hx'
  obtain ⟨rfl, rfl⟩ := hx'
  exact ⟨m, hx, exec_run hx hst h1 h1' h2 h2'⟩

/-- **C108 (finding).** The offsets depend on the order in which the parallel loop takes the
faces: the same input gives different files. -/
theorem layout_varies : ∃ (c : Cfg) (fs : List Face) (r r' : Result), Sized fs ∧ Tame c fs ∧
    Run c fs (.ok r) ∧ Run c fs (.ok r') ∧ r.outs ≠ r'.outs := by
  have hst : three.all (stylesOk quake) = true := by decide +kernel
  have e1 : fields quake three [0, 1, 2] [0, 1, 2] = some (12,
    [ ⟨⟨0, [0, 255, 255, 255]⟩, ⟨0, List.replicate 16 0⟩, 0⟩,
      ⟨⟨4, [32, 0, 255, 255]⟩, ⟨0, List.replicate 16 0⟩, 0⟩,
      ⟨⟨-1, [255, 255, 255, 255]⟩, ⟨0, List.replicate 16 0⟩, 0⟩ ]) := by decide +kernel
  have e2 : fields quake three [1, 0, 2] [0, 1, 2] = some (12,
    [ ⟨⟨8, [0, 255, 255, 255]⟩, ⟨0, List.replicate 16 0⟩, 0⟩,
      ⟨⟨0, [32, 0, 255, 255]⟩, ⟨0, List.replicate 16 0⟩, 0⟩,
      ⟨⟨-1, [255, 255, 255, 255]⟩, ⟨0, List.replicate 16 0⟩, 0⟩ ]) := by decide +kernel
  obtain ⟨m1, _, r1⟩ := fields_run e1 hst (by decide) (by decide) (by decide) (by decide)
  obtain ⟨m2, _, r2⟩ := fields_run e2 hst (by decide) (by decide) (by decide) (by decide)
  exact ⟨quake, three, _, _, three_sized, three_tame _ rfl, r1, r2, by simp⟩

/-! ### Supplementary data -/

/-- A map with the lump LMSHIFT. -/
def scaled : Cfg := { quake with sup := true }

/-- A face with a lightmap that is finer than the one of its model, and one with the scale of
its model. -/
def two : List Face :=
  [ mkFace 4 1 false [lm 0 10 4 1 1], mkFace 2 2 true [lm 0 10 2 2 2] ]

theorem two_sized : Sized two := by
  intro f hf s hs
  simp only [two, List.mem_cons, List.not_mem_nil, or_false] at hf
  rcases hf with rfl | rfl
  · exact mkFace_sized (l := [(0, 10, 1)]) s hs
  · exact mkFace_sized (l := [(0, 10, 2)]) s hs

theorem two_tame : Tame scaled two := by
  intro f hf hm s hs
  simp only [two, List.mem_cons, List.not_mem_nil, or_false] at hf
  rcases hf with rfl | rfl <;>
    (simp only [mkFace, Option.some.injEq] at hs; subst hs; simp)

example : fields scaled two [0, 1] [0, 1] = some (12,
    [ ⟨⟨4, [0, 255, 255, 255]⟩, ⟨4, 0 :: List.replicate 15 65535⟩, 0⟩,
      ⟨⟨-1, [0, 255, 255, 255]⟩, ⟨8, 0 :: List.replicate 15 65535⟩, 0⟩ ]) := by decide +kernel

/-- The hypotheses of the theorem about the lumps are met, and LMOFFSET is written. -/
example : ∃ r, Run scaled two (.ok r) ∧ No255 two ∧ 0 ≤ scaled.facestyles := by
  have hst : two.all (stylesOk scaled) = true := by decide +kernel
  obtain ⟨x, hx⟩ := run_exists scaled two
  obtain ⟨r, rfl⟩ := save_succeeds hx hst two_sized two_tame (by decide +kernel)
  refine ⟨r, hx, ?_, by decide⟩
  intro f hf s hs l hl
  simp only [two, List.mem_cons, List.not_mem_nil, or_false] at hf
  rcases hf with rfl | rfl <;>
    (simp only [mkFace, Option.some.injEq] at hs; subst hs;
     simp only [List.mem_singleton] at hl; subst hl; decide)

/-- **C113 (finding).** The lightmap in the standard size is not in the lightmap data: at the
offset of the face stands the beginning of the finer one. -/
theorem vanilla_lost : ∃ (r : Result) (f : Face) (s : Surf) (o : Out),
    Run scaled two (.ok r) ∧ two[0]? = some f ∧ f.surf = some s ∧ r.outs[0]? = some o ∧
    o.face.lightofs ≥ 0 ∧
    (faceKept scaled f s).map (fun l => l.vimg.grey) = [[101]] ∧
    r.mem .grey o.face.lightofs.toNat = 1 := by
  have hst : two.all (stylesOk scaled) = true := by decide +kernel
  have e1 : fields scaled two [0, 1] [0, 1] = some (12,
    [ ⟨⟨4, [0, 255, 255, 255]⟩, ⟨4, 0 :: List.replicate 15 65535⟩, 0⟩,
      ⟨⟨-1, [0, 255, 255, 255]⟩, ⟨8, 0 :: List.replicate 15 65535⟩, 0⟩ ]) := by decide +kernel
  obtain ⟨m, hm, r1⟩ := fields_run e1 hst (by decide) (by decide) (by decide) (by decide)
  refine ⟨_, _, _, _, r1, rfl, rfl, rfl, by decide, by decide +kernel, ?_⟩
  have : (exec scaled two [0, 1] [0, 1]).map (fun x => x.2.1 .grey 4) = some 1 := by
    decide +kernel
  rw [hm] at this
  simpa using this

/-- A face with a lightmap that is coarser than the standard one (its model has the scale 32,
say, and its face 64), and one with the scale of its model. -/
def coarse : List Face :=
  [ mkFace 1 8 false [lm 0 10 1 8 1], mkFace 2 2 true [lm 0 10 2 2 2] ]

theorem coarse_sized : Sized coarse := by
  intro f hf s hs
  simp only [coarse, List.mem_cons, List.not_mem_nil, or_false] at hf
  rcases hf with rfl | rfl
  · exact mkFace_sized (l := [(0, 10, 1)]) s hs
  · exact mkFace_sized (l := [(0, 10, 2)]) s hs

/-- **C113 (finding).** The lightmap of another face is destroyed: the bytes of the second face
are those of the first one, in one of the orders, and correct in another. -/
theorem neighbour_destroyed : ∃ (r r' : Result) (o : Out),
    Run scaled coarse (.ok r) ∧ Run scaled coarse (.ok r') ∧
    r.outs[1]? = some o ∧ r'.outs[1]? = some o ∧ o.sup.lightofs ≥ 0 ∧
    r.mem .grey o.sup.lightofs.toNat = 2 ∧ r'.mem .grey o.sup.lightofs.toNat = 101 := by
  have hst : coarse.all (stylesOk scaled) = true := by decide +kernel
  have e1 : fields scaled coarse [0, 1] [0, 1] = some (16,
    [ ⟨⟨8, [0, 255, 255, 255]⟩, ⟨8, 0 :: List.replicate 15 65535⟩, 0⟩,
      ⟨⟨-1, [0, 255, 255, 255]⟩, ⟨12, 0 :: List.replicate 15 65535⟩, 0⟩ ]) := by decide +kernel
  have e2 : fields scaled coarse [0, 1] [1, 0] = some (16,
    [ ⟨⟨8, [0, 255, 255, 255]⟩, ⟨8, 0 :: List.replicate 15 65535⟩, 0⟩,
      ⟨⟨-1, [0, 255, 255, 255]⟩, ⟨12, 0 :: List.replicate 15 65535⟩, 0⟩ ]) := by decide +kernel
  obtain ⟨m, hm, r1⟩ := fields_run e1 hst (by decide) (by decide) (by decide) (by decide)
  obtain ⟨m', hm', r2⟩ := fields_run e2 hst (by decide) (by decide) (by decide) (by decide)
  refine ⟨_, _, _, r1, r2, rfl, rfl, by decide, ?_, ?_⟩
  · have : (exec scaled coarse [0, 1] [0, 1]).map (fun x => x.2.1 .grey 12) = some 2 := by
      decide +kernel
    rw [hm] at this
    simpa using this
  · have : (exec scaled coarse [0, 1] [1, 0]).map (fun x => x.2.1 .grey 12) = some 101 := by
      decide +kernel
    rw [hm'] at this
    simpa using this

/-- **C113 (finding).** If this face is the last one to reserve space, the program stops with a
failed assertion. -/
theorem coarse_fails : Run scaled coarse .error := by
  have hst : coarse.all (stylesOk scaled) = true := by decide +kernel
  have hg : grant 0 (inOrder (coarse.map (requests scaled)) [1, 0]) =
      .ok ([(1, .main, 0), (0, .vanilla, 4), (0, .main, 12)], 16) := by decide +kernel
  refine .failed (inOrder (coarse.map (requests scaled)) [1, 0]) _ _ hst
    (inOrder_interleaves _ _ (by decide) (by decide)) hg ?_
  decide +kernel

/-- **C111 (finding).** With supplementary data, a face that has no lightmap keeps the offset
and the styles that it had in the BSP file. -/
theorem stale_offset : ∃ (r : Result) (o : Out),
    Run scaled [⟨none, false, ⟨1000, [7, 255, 255, 255]⟩⟩] (.ok r) ∧ r.outs[0]? = some o ∧
    o.face.lightofs = 1000 ∧ r.total = 0 := by
  have e1 : fields scaled [⟨none, false, ⟨1000, [7, 255, 255, 255]⟩⟩] [0] [0] = some (0,
    [ ⟨⟨1000, [7, 255, 255, 255]⟩, ⟨-1, List.replicate 16 65535⟩, 0⟩ ]) := by decide +kernel
  obtain ⟨m, _, r1⟩ := fields_run e1 (by decide +kernel) (by decide) (by decide) (by decide)
    (by decide)
  exact ⟨_, _, r1, rfl, rfl, rfl⟩

/-- **C111 (finding).** A light of style 255 ends the list of styles of the face: the lightmaps
are stored, but no style is read. -/
theorem style_255_lost : ∃ (fs : List Face) (r : Result) (f : Face) (s : Surf) (o : Out),
    Run quake fs (.ok r) ∧ fs[0]? = some f ∧ f.surf = some s ∧ r.outs[0]? = some o ∧
    (faceKept quake f s).map Lightmap.style = [255, 0] ∧
    readStyles 255 o.face.styles = [] := by
  have e1 : fields quake [mkFace 2 2 true [lm 0 10 2 2 1, lm 255 20 2 2 2]] [0] [0] = some (4,
    [ ⟨⟨0, [255, 0, 255, 255]⟩, ⟨0, List.replicate 16 0⟩, 0⟩ ]) := by decide +kernel
  obtain ⟨m, _, r1⟩ := fields_run e1 (by decide +kernel) (by decide) (by decide) (by decide)
    (by decide)
  exact ⟨_, _, _, _, _, r1, rfl, rfl, rfl, by decide +kernel, by decide +kernel⟩

/-- **C110 (finding).** A light of a style above 255 is left out, also when the styles of the
faces are written with 16 bits. -/
theorem style_256_dropped : ∃ (s : Surf) (l : Lightmap), l ∈ s.lightmaps ∧ l.style = 256 ∧
    1 ≤ l.max ∧ kept { quake with sup := true, facestyles := 16 } true s = [] := by
  exact ⟨⟨[lm 256 10 1 1 1], lm 0 0 1 1 0, 1, 1⟩, lm 256 10 1 1 1, by simp, rfl, by decide +kernel,
    by decide +kernel⟩

/-- Two faces; the second one has a lightmap of more than 715827882 samples. -/
def huge : List Face :=
  [ mkFace 1 1 true [lm 0 10 1 1 1],
    mkFace 715827884 715827884 true [lm 0 10 715827884 715827884 2] ]

theorem huge_sized : Sized huge := by
  intro f hf s hs
  simp only [huge, List.mem_cons, List.not_mem_nil, or_false] at hf
  rcases hf with rfl | rfl
  · exact mkFace_sized (l := [(0, 10, 1)]) s hs
  · exact mkFace_sized (l := [(0, 10, 2)]) s hs

/-- **C109 (finding).** The check for too much lightmap data comes too late: an offset above the
third part of the largest `int` is multiplied by three. -/
theorem offset_overflow : ∃ fs, Sized fs ∧ Tame quake fs ∧ fs.all (stylesOk quake) = true ∧
    space quake fs ≤ INT_MAX ∧ Run quake fs .ub := by
  have hst : huge.all (stylesOk quake) = true := by decide +kernel
  have ht : Tame quake huge := by
    intro f _ hm
    unfold mode at hm
    simp [quake] at hm
  have hg : grant 0 (inOrder (huge.map (requests quake)) [1, 0]) =
      .ok ([(1, .main, 0), (0, .main, 715827884)], 715827888) := by decide +kernel
  refine ⟨huge, huge_sized, ht, hst, by decide +kernel, ?_⟩
  refine .undef (inOrder (huge.map (requests quake)) [1, 0]) _ _ hst
    (inOrder_interleaves _ _ (by decide) (by decide)) hg ?_
  have hf : faceProg quake 715827888 [(1, .main, 0), (0, .main, 715827884)] 0
      (mkFace 1 1 true [lm 0 10 1 1 1]) = .ub := by decide +kernel
  unfold huge progs
  rw [hf]
  rfl

/-! ### The .lit file of version 2 -/

/-- **C114 (finding).** For a BSP file without lightmap data, as it comes from qbsp, the .lit
file of version 2 contains no sample, whatever was computed. -/
theorem lit2_empty (c : Cfg) (total : Nat) : writeLit2 c total 0 = .ok (0, 0) := by
  unfold writeLit2
  simp

/-- **C114 (finding).** For a BSP file with lightmap data, the directions of light are read from
an array that is empty, unless they were asked for. -/
theorem lit2_no_directions (c : Cfg) (hc : c.lux = false) (total old : Nat) (h : old ≠ 0) :
    writeLit2 c total old = .ub := by
  unfold writeLit2
  have : bufSize c total .lux = 0 := by simp [bufSize, hc]
  rw [this]
  split
  · rfl
  · rw [if_pos (by omega)]

/-- **C114.** The file has the samples of all lightmaps only if the BSP file had the same amount
of lightmap data before. -/
theorem lit2_complete_partial (c : Cfg) (total old : Nat) (hl : c.lit = true) (hx : c.lux = true) :
    writeLit2 c total old = .ok (total * 3, total * 3) ↔ old = total := by
  unfold writeLit2
  simp only [bufSize, hl, hx, Bool.or_true, if_true]
  constructor
  · intro h
    split at h
    · simp at h
    · simp only [Outcome.ok.injEq, Prod.mk.injEq] at h
      omega
  · rintro rfl
    simp

end Ex

end Verif.Light
