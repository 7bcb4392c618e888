import Verif.BspUtil.Commands
import Verif.EntData.DictProps

/-! C207: the commands of `bsputil`, alone and one after the other. -/

namespace Verif.BspUtil.Commands

open EntData (Str Dict)
open Replace (MEnt)

variable {B C F : Type}

namespace Spec

/-- What a command that only reads writes to a file next to the source, with the extension of that file. -/
inductive Reads (env : Env B C F) (b : B) : Cmd → Option (Str × Str) → Prop
  | svg : Reads env b .svg (some (dotSvg, env.svg b))
  | check : Reads env b .check none
  | modelinfo : Reads env b .modelinfo none
  | entities : env.ents b ≠ [] → Reads env b .extractEntities (some (dotEnt, env.ents b))
  | textures : Reads env b .extractTextures (some (dotWad, env.exportWad b))

/-- The files of several such commands, for a source with the given stem. -/
inductive AllRead (env : Env B C F) (b : B) (stem : Str) : List Str → List Ev → Prop
  | nil : AllRead env b stem [] []
  | silent {a c ws evs} : command a = some c → Reads env b c none → AllRead env b stem ws evs → AllRead env b stem (a :: ws) evs
  | file {a c e x ws evs} : command a = some c → Reads env b c (some (e, x)) → AllRead env b stem ws evs →
      AllRead env b stem (a :: ws) (.wrote (stem ++ e) x :: evs)

/-- A map that comes from a map by one change, or by none, and its BSPX lumps. -/
inductive OneChange (env : Env B C F) (b : B) (L : Dict) : B → Prop
  | same : OneChange env b L b
  | scaled (x y z : Str) : OneChange env b L (env.scale x y z b L).1
  | entities (t : Str) : OneChange env b L (env.setEnts t b)
  | textures {w : Str} {r : B → B} : env.wad w = some r → OneChange env b L (r b)
  | texinfo {m n : Int} {b' : B} : env.setTex m n b = some b' → OneChange env b L b'

/-- What is taken out of a map, or its BSPX lumps. -/
inductive TakenOut (env : Env B C F) (b : B) (L : Dict) : Str → Prop
  | svg : TakenOut env b L (env.svg b)
  | entities : TakenOut env b L (env.ents b)
  | textures : TakenOut env b L (env.exportWad b)
  | decompiled (c : Cmd) (n : Int) : TakenOut env b L (env.decompile c n b)
  | lump {n d : Str} : EntData.find L n = some d → TakenOut env b L d

end Spec

open Spec

theorem splitExt_dot (s e : Str) (hs : s ≠ []) (he : (46 : UInt8) ∉ e) : splitExt (s ++ 46 :: e) = (s, 46 :: e) := by
  have hr : (s ++ 46 :: e).reverse = e.reverse ++ 46 :: s.reverse := by simp
  have h1 : (e.reverse ++ 46 :: s.reverse).takeWhile (· ≠ 46) = e.reverse := by
    rw [List.takeWhile_append_of_pos (by intro x hx; simp only [List.mem_reverse] at hx; simpa using fun h : x = 46 => he (h ▸ hx))]
    simp
  have h2 : (e.reverse ++ 46 :: s.reverse).dropWhile (· ≠ 46) = 46 :: s.reverse := by
    rw [List.dropWhile_append_of_pos (by intro x hx; simp only [List.mem_reverse] at hx; simpa using fun h : x = 46 => he (h ▸ hx))]
    simp
  unfold splitExt
  simp only [hr]
  rw [h1, h2]
  simp [hs]

theorem run_cons (env : Env B C F) (n : Nat) (a r : Str) (rs : List Str) (st : St B C F) :
    run env (n + 1) (a :: r :: rs) st = match step env st a (r :: rs) with
      | (ev, .done) => (ev, .done)
      | (ev, .failed) => (ev, .failed)
      | (ev, .ub) => (ev, .ub)
      | (ev, .go st' rest) => (ev ++ (run env n rest st').1, (run env n rest st').2) := by
  conv_lhs => rw [run]
  rcases step env st a (r :: rs) with ⟨ev, _ | _ | _ | _⟩ <;> rfl

/-- The state after a command that reads. -/
theorem step_reads {env : Env B C F} {b : B} {stem ext a : Str} {c : Cmd} {o : Option (Str × Str)} {st : St B C F} {rest : List Str} (hc : command a = some c)
    (hr : Reads env b c o) (hd : st.data = .generic b) (hp : splitExt st.path = (stem, ext)) (hs : stem ≠ []) :
    ∃ p e, splitExt p = (stem, e) ∧ step env st a rest =
      ((match o with | none => [] | some (e, x) => [.wrote (stem ++ e) x]), .go { st with path := p } rest) := by
  have hrep : ∀ e, replaceExt st.path e = stem ++ e := by intro e; rw [replaceExt, hp]
  cases hr with
  | svg => exact ⟨st.path, ext, hp, by simp only [step, hc, hd, hrep]; rw [← hd]⟩
  | check => exact ⟨st.path, ext, hp, by simp only [step, hc, withBsp, hd]; rw [← hd]⟩
  | modelinfo => exact ⟨st.path, ext, hp, by simp only [step, hc, withBsp, hd]; rw [← hd]⟩
  | entities h => exact ⟨stem ++ dotEnt, dotEnt, splitExt_dot stem _ hs (by decide), by simp only [step, hc, doExtractEntities, withBsp, hd, hrep, if_neg h]⟩
  | textures => exact ⟨stem ++ dotWad, dotWad, splitExt_dot stem _ hs (by decide), by simp only [step, hc, doExtractTextures, withBsp, hd, hrep]⟩

/-- **C207 (reading).** Commands that only read can be given in any number and order: each writes its own file next to the source, from the map as it
was loaded, and the program succeeds. -/
theorem reads_in_order {env : Env B C F} {b : B} {stem ext : Str} {words : List Str} {evs : List Ev} {st : St B C F} {file : Str}
    (h : AllRead env b stem words evs) (hd : st.data = .generic b) (hp : splitExt st.path = (stem, ext)) (hs : stem ≠ []) :
    main env (words ++ [file]) st = (evs, .done) := by
  have key : ∀ (words : List Str) (evs : List Ev), AllRead env b stem words evs → ∀ (n : Nat) (st : St B C F) (ext : Str), words.length < n →
      st.data = .generic b → splitExt st.path = (stem, ext) → run env n (words ++ [file]) st = (evs, .done) := by
    intro words evs h
    induction h with
    | nil =>
      intro n st ext hn _ _
      cases n <;> rfl
    | @silent a c ws evs hc hr _ ih =>
      intro n st ext hn hd hp
      cases n with
      | zero => simp at hn
      | succ n =>
        have hne : ws ++ [file] ≠ [] := by simp
        obtain ⟨r, rs, he⟩ := List.exists_cons_of_ne_nil hne
        obtain ⟨p, e2, h1, h2⟩ := step_reads (rest := r :: rs) hc hr hd hp hs
        rw [List.cons_append, he, run_cons, h2]
        simp only
        rw [← he, ih n _ e2 (by simp at hn; omega) (by simpa using hd) h1]
        rfl
    | @file a c e x ws evs hc hr _ ih =>
      intro n st ext hn hd hp
      cases n with
      | zero => simp at hn
      | succ n =>
        have hne : ws ++ [file] ≠ [] := by simp
        obtain ⟨r, rs, he⟩ := List.exists_cons_of_ne_nil hne
        obtain ⟨p, e2, h1, h2⟩ := step_reads (rest := r :: rs) hc hr hd hp hs
        rw [List.cons_append, he, run_cons, h2]
        simp only
        rw [← he, ih n _ e2 (by simp at hn; omega) (by simpa using hd) h1]
        rfl
  exact key words evs h _ st ext (by simp) hd hp

/-! ### Commands that change the map -/

/-- What may be written once the map is in a format. -/
theorem stuck_step {env : Env B C F} {f : F} {c : C} {st : St B C F} {a : Str} {rest : List Str} (hd : st.data = .as f c) (hm : st.map = []) :
    (∀ p x, .wrote p x ∈ (step env st a rest).1 → (∃ L, x = env.bytes f c L) ∨ ∃ n, EntData.find st.lumps n = some x) ∧
    (∀ st' rest', (step env st a rest).2 = .go st' rest' → st'.data = .as f c ∧ st'.map = [] ∧ st'.lumps = st.lumps) := by
  have hw : ∀ (g : F) (L : Dict) (q p : Str) (rs : List Str),
      (∀ p' x, .wrote p' x ∈ (writeAs env g ⟨q, .as f c, L, []⟩ p id rs).1 → (∃ L, x = env.bytes f c L) ∨ ∃ n, EntData.find st.lumps n = some x) ∧
      (∀ st' rest', (writeAs env g ⟨q, .as f c, L, []⟩ p id rs).2 = .go st' rest' → st'.data = .as f c ∧ st'.map = [] ∧ st'.lumps = L) := by
    intro g L q p rs
    constructor
    · intro p' x hx
      simp only [writeAs, convertTo, List.mem_singleton, Ev.wrote.injEq] at hx
      exact .inl ⟨L, hx.2⟩
    · intro st' rest' h
      simp only [writeAs, convertTo, id, Next.go.injEq] at h
      rw [← h.1]
      exact ⟨rfl, rfl, rfl⟩
  have hwe : ∀ (g : F) (L : Dict) (q p : Str) (rs : List Str),
      (∀ p' x, .wrote p' x ∈ (writeAs env g ⟨q, .as f c, L, []⟩ p ends rs).1 → (∃ L, x = env.bytes f c L) ∨ ∃ n, EntData.find st.lumps n = some x) ∧
      (∀ st' rest', (writeAs env g ⟨q, .as f c, L, []⟩ p ends rs).2 = .go st' rest' → st'.data = .as f c ∧ st'.map = [] ∧ st'.lumps = st.lumps) := by
    intro g L q p rs
    constructor
    · intro p' x hx
      simp only [writeAs, convertTo, List.mem_singleton, Ev.wrote.injEq] at hx
      exact .inl ⟨L, hx.2⟩
    · intro st' rest' h
      simp only [writeAs, convertTo, ends, reduceCtorEq] at h
  have hb : ∀ k : B → List Ev × Next B C F, withBsp st k = ([], .failed) := by intro k; simp only [withBsp, hd]
  have hdec : ∀ (k : Cmd) (n : Int) (p : Str), doDecompile env st k n p = ([.cut p], .failed) := by intro k n p; simp only [doDecompile, hd]
  have triv : ∀ (evs : List Ev) (nx : Next B C F), (∀ p x, Ev.wrote p x ∉ evs) → (∀ s r, nx ≠ .go s r) →
      (∀ p x, .wrote p x ∈ (evs, nx).1 → (∃ L, x = env.bytes f c L) ∨ ∃ n, EntData.find st.lumps n = some x) ∧
      (∀ st' rest', (evs, nx).2 = .go st' rest' → st'.data = .as f c ∧ st'.map = [] ∧ st'.lumps = st.lumps) :=
    fun evs nx h1 h2 => ⟨fun p x h => absurd h (h1 p x), fun s r h => absurd h (h2 s r)⟩
  obtain ⟨q, d, L, m⟩ := st
  simp only at hd hm
  subst hd hm
  unfold step
  cases hcm : command a with
  | none =>
    simp only
    refine ⟨by simp, ?_⟩
    intro s r h
    simp only [Next.go.injEq] at h
    rw [← h.1]
    exact ⟨rfl, rfl, rfl⟩
  | some k =>
    cases k <;> simp only
    case svg => exact triv _ _ (by simp) (by simp)
    case scale =>
      unfold doScale
      split
      · rw [hb]; exact triv _ _ (by simp) (by simp)
      · exact triv _ _ (by simp) (by simp)
      · exact triv _ _ (by simp) (by simp)
    case replaceEntities =>
      unfold doReplaceEntities
      split
      · simp only
        split
        · exact triv _ _ (by simp) (by simp)
        · split
          · exact triv _ _ (by simp) (by simp)
          · exact triv _ _ (by simp) (by simp)
          · rename_i es _
            have : Replace.replace [] es = .ub := rfl
            rw [this]
            exact triv _ _ (by simp) (by simp)
      · exact triv _ _ (by simp) (by simp)
    case compare =>
      unfold doCompare
      split
      · split
        · rw [hb]; exact triv _ _ (by simp) (by simp)
        · exact triv _ _ (by simp) (by simp)
      · exact triv _ _ (by simp) (by simp)
    case convert =>
      unfold doConvert
      split
      · split
        · exact triv _ _ (by simp) (by simp)
        · exact triv _ _ (by simp) (by simp)
        · exact hw _ _ _ _ _
      · exact triv _ _ (by simp) (by simp)
    case extractEntities => unfold doExtractEntities; rw [hb]; exact triv _ _ (by simp) (by simp)
    case extractTextures => unfold doExtractTextures; rw [hb]; exact triv _ _ (by simp) (by simp)
    case replaceTextures =>
      unfold doReplaceTextures
      split
      · exact triv _ _ (by simp) (by simp)
      · split
        · exact triv _ _ (by simp) (by simp)
        · rw [hb]; exact triv _ _ (by simp) (by simp)
    case check => rw [hb]; exact triv _ _ (by simp) (by simp)
    case modelinfo => rw [hb]; exact triv _ _ (by simp) (by simp)
    case findfaces =>
      unfold doFind
      split
      · exact triv _ _ (by simp) (by simp)
      · rw [hb]; exact triv _ _ (by simp) (by simp)
    case findleaf =>
      unfold doFind
      split
      · exact triv _ _ (by simp) (by simp)
      · rw [hb]; exact triv _ _ (by simp) (by simp)
    case settexinfo =>
      unfold doSetTex
      split
      · rw [hb]; exact triv _ _ (by simp) (by simp)
      · exact triv _ _ (by simp) (by simp)
    case decompile => rw [hdec]; exact triv _ _ (by simp) (by simp)
    case decompileGeomonly => rw [hdec]; exact triv _ _ (by simp) (by simp)
    case decompileIgnoreBrushes => rw [hdec]; exact triv _ _ (by simp) (by simp)
    case decompileHull =>
      unfold doDecompileHull
      split
      · exact triv _ _ (by simp) (by simp)
      · split
        · exact triv _ _ (by simp) (by simp)
        · rw [hdec]; exact triv _ _ (by simp) (by simp)
    case extractLump =>
      unfold doExtractLump
      split
      · rename_i n o _ _
        simp only
        split
        · exact triv _ _ (by simp) (by simp)
        · rename_i d hf
          refine ⟨?_, by simp⟩
          intro p x hx
          simp only [List.mem_singleton, Ev.wrote.injEq] at hx
          exact .inr ⟨n, by rw [hx.2]; exact hf⟩
      · exact triv _ _ (by simp) (by simp)
      · exact triv _ _ (by simp) (by simp)
    case insertLump =>
      unfold doInsertLump
      split
      · split
        · exact triv _ _ (by simp) (by simp)
        · exact hwe _ _ _ _ _
      · exact triv _ _ (by simp) (by simp)
      · exact triv _ _ (by simp) (by simp)
    case removeLump =>
      unfold doRemoveLump
      split
      · simp only
        split
        · exact triv _ _ (by simp) (by simp)
        · exact hwe _ _ _ _ _
      · exact triv _ _ (by simp) (by simp)

theorem stuck_run (env : Env B C F) (f : F) (c : C) : ∀ (n : Nat) (words : List Str) (st : St B C F), st.data = .as f c → st.map = [] →
    ∀ p x, .wrote p x ∈ (run env n words st).1 → (∃ L, x = env.bytes f c L) ∨ ∃ n, EntData.find st.lumps n = some x
  | 0, _, _, _, _, p, x, h => by simp [run] at h
  | n + 1, [], _, _, _, p, x, h => by simp [run] at h
  | n + 1, [_], _, _, _, p, x, h => by simp [run] at h
  | n + 1, a :: r :: rs, st, hd, hm, p, x, h => by
    have hs := stuck_step (env := env) (a := a) (rest := r :: rs) hd hm
    rw [run_cons] at h
    rcases hstep : step env st a (r :: rs) with ⟨ev, st' | _ | _ | _⟩
    all_goals rw [hstep] at h hs
    all_goals simp only at h hs
    · rcases List.mem_append.1 h with h | h
      · exact hs.1 p x h
      · obtain ⟨h1, h2, h3⟩ := hs.2 _ _ rfl
        rw [← h3]
        exact stuck_run env f c n _ _ h1 h2 p x h
    all_goals exact hs.1 p x h

/-- What a command may do to a map in generic form. -/
def StepOk (env : Env B C F) (b : B) (L : Dict) (r : List Ev × Next B C F) : Prop :=
  ((∀ p x, .wrote p x ∈ r.1 → TakenOut env b L x) ∧
    ∀ st' rest', r.2 = .go st' rest' → st'.map = [] ∧ st'.data = .generic b ∧ st'.lumps = L) ∨
  ∃ (f : F) (b' : B) (c : C), OneChange env b L b' ∧ env.conv f b' = some c ∧
    (∀ p x, .wrote p x ∈ r.1 → ∃ L', x = env.bytes f c L') ∧
    ∀ st' rest', r.2 = .go st' rest' → st'.map = [] ∧ st'.data = .as f c ∧ (st'.lumps = L ∨ ∃ x y z, st'.lumps = (env.scale x y z b L).2)

theorem StepOk.quiet {env : Env B C F} {b : B} {L : Dict} {evs : List Ev} {nx : Next B C F} (h1 : ∀ p x, Ev.wrote p x ∉ evs) (h2 : ∀ s r, nx ≠ .go s r) :
    StepOk env b L (evs, nx) :=
  .inl ⟨fun p x h => absurd h (h1 p x), fun s r h => absurd h (h2 s r)⟩

theorem StepOk.write {env : Env B C F} {b b' : B} {L : Dict} (g : F) (L' : Dict) (q p : Str) (rs : List Str) (hb : OneChange env b L b')
    (after : Next B C F → Next B C F) (ha : (after = id ∧ (L' = L ∨ ∃ x y z, L' = (env.scale x y z b L).2)) ∨ after = ends) :
    StepOk env b L (writeAs env g ⟨q, .generic b', L', []⟩ p after rs) := by
  unfold writeAs convertTo
  simp only
  cases hc : env.conv g b' with
  | none => exact StepOk.quiet (by simp) (by simp)
  | some c =>
    refine .inr ⟨g, b', c, hb, hc, ?_, ?_⟩
    · intro p x h
      simp only [List.mem_singleton, Ev.wrote.injEq] at h
      exact ⟨L', h.2⟩
    · intro st' rest' h
      rcases ha with ⟨rfl, hL⟩ | rfl
      · simp only [id, Next.go.injEq] at h
        rw [← h.1]
        exact ⟨rfl, rfl, hL⟩
      · simp [ends] at h

theorem StepOk.took {env : Env B C F} {b : B} {L : Dict} {p x q : Str} {nx : Next B C F} (hx : TakenOut env b L x)
    (hn : (∀ s r, nx ≠ .go s r) ∨ ∃ r, nx = .go ⟨q, .generic b, L, []⟩ r) : StepOk env b L ([.wrote p x], nx) := by
  refine .inl ⟨?_, ?_⟩
  · intro p' x' h
    simp only [List.mem_singleton, Ev.wrote.injEq] at h
    rw [h.2]; exact hx
  · intro s r h
    rcases hn with hn | ⟨r', rfl⟩
    · exact absurd h (hn s r)
    · simp only [Next.go.injEq] at h
      rw [← h.1]
      exact ⟨rfl, rfl, rfl⟩

theorem StepOk.nothing {env : Env B C F} {b : B} {L : Dict} {q : Str} {evs : List Ev} {r : List Str} (h1 : ∀ p x, Ev.wrote p x ∉ evs) :
    StepOk env b L (evs, .go ⟨q, .generic b, L, []⟩ r) := by
  refine .inl ⟨fun p x h => absurd h (h1 p x), ?_⟩
  intro s r h
  simp only [Next.go.injEq] at h
  rw [← h.1]
  exact ⟨rfl, rfl, rfl⟩

theorem generic_step (env : Env B C F) (q : Str) (b : B) (L : Dict) (a : Str) (rest : List Str) :
    StepOk env b L (step env ⟨q, .generic b, L, []⟩ a rest) := by
  unfold step
  cases hcm : command a with
  | none => exact StepOk.nothing (by simp)
  | some k =>
    cases k <;> simp only
    case svg => exact StepOk.took .svg (.inr ⟨_, rfl⟩)
    case scale =>
      unfold doScale
      split
      · exact StepOk.write _ _ _ _ _ (.scaled _ _ _) id (.inl ⟨rfl, .inr ⟨_, _, _, rfl⟩⟩)
      · exact StepOk.quiet (by simp) (by simp)
      · exact StepOk.quiet (by simp) (by simp)
    case replaceEntities =>
      unfold doReplaceEntities
      split
      · simp only
        split
        · exact StepOk.quiet (by simp) (by simp)
        · exact StepOk.write _ _ _ _ _ (.entities _) id (.inl ⟨rfl, .inl rfl⟩)
      · exact StepOk.quiet (by simp) (by simp)
    case compare =>
      unfold doCompare withBsp
      split
      · split
        · exact StepOk.quiet (by simp) (by simp)
        · exact StepOk.quiet (by simp) (by simp)
      · exact StepOk.quiet (by simp) (by simp)
    case convert =>
      unfold doConvert
      split
      · split
        · exact StepOk.quiet (by simp) (by simp)
        · exact StepOk.quiet (by simp) (by simp)
        · exact StepOk.write _ _ _ _ _ .same id (.inl ⟨rfl, .inl rfl⟩)
      · exact StepOk.quiet (by simp) (by simp)
    case extractEntities =>
      unfold doExtractEntities withBsp
      simp only
      split
      · exact StepOk.quiet (by simp) (by simp)
      · exact StepOk.took .entities (.inr ⟨_, rfl⟩)
    case extractTextures => exact StepOk.took .textures (.inr ⟨_, rfl⟩)
    case replaceTextures =>
      unfold doReplaceTextures
      split
      · exact StepOk.quiet (by simp) (by simp)
      · split
        · exact StepOk.quiet (by simp) (by simp)
        · rename_i hw
          exact StepOk.write _ _ _ _ _ (.textures hw) id (.inl ⟨rfl, .inl rfl⟩)
    case check => exact StepOk.nothing (by simp)
    case modelinfo => exact StepOk.nothing (by simp)
    case findfaces =>
      unfold doFind withBsp
      split
      · exact StepOk.quiet (by simp) (by simp)
      · simp only
        split <;> exact StepOk.quiet (by simp) (by simp)
    case findleaf =>
      unfold doFind withBsp
      split
      · exact StepOk.quiet (by simp) (by simp)
      · simp only
        split <;> exact StepOk.quiet (by simp) (by simp)
    case settexinfo =>
      unfold doSetTex withBsp
      split
      · simp only
        split
        · split
          · exact StepOk.quiet (by simp) (by simp)
          · rename_i hw
            exact StepOk.write _ _ _ _ _ (.texinfo hw) ends (.inr rfl)
        · exact StepOk.quiet (by simp) (by simp)
      · exact StepOk.quiet (by simp) (by simp)
    case decompile => exact StepOk.took (q := q) (.decompiled _ _) (.inl (by simp))
    case decompileGeomonly => exact StepOk.took (q := q) (.decompiled _ _) (.inl (by simp))
    case decompileIgnoreBrushes => exact StepOk.took (q := q) (.decompiled _ _) (.inl (by simp))
    case decompileHull =>
      unfold doDecompileHull
      split
      · exact StepOk.quiet (by simp) (by simp)
      · split
        · exact StepOk.quiet (by simp) (by simp)
        · exact StepOk.took (q := q) (.decompiled _ _) (.inl (by simp))
    case extractLump =>
      unfold doExtractLump
      split
      · simp only
        split
        · exact StepOk.quiet (by simp) (by simp)
        · rename_i hf
          exact StepOk.took (q := q) (.lump hf) (.inl (by simp))
      · exact StepOk.quiet (by simp) (by simp)
      · exact StepOk.quiet (by simp) (by simp)
    case insertLump =>
      unfold doInsertLump
      split
      · split
        · exact StepOk.quiet (by simp) (by simp)
        · exact StepOk.write _ _ _ _ _ .same ends (.inr rfl)
      · exact StepOk.quiet (by simp) (by simp)
      · exact StepOk.quiet (by simp) (by simp)
    case removeLump =>
      unfold doRemoveLump
      split
      · simp only
        split
        · exact StepOk.quiet (by simp) (by simp)
        · exact StepOk.write _ _ _ _ _ .same ends (.inr rfl)
      · exact StepOk.quiet (by simp) (by simp)

/-- **C207 (several changes), a defect.** However many commands are given, the maps that are written all come from one map that differs from the loaded one
by at most one change: changes are never combined. Everything else that is written is taken out of the map as it was loaded. -/
theorem at_most_one_change (env : Env B C F) (words : List Str) (q : Str) (b : B) (L : Dict) :
    (∀ p x, .wrote p x ∈ (main env words ⟨q, .generic b, L, []⟩).1 → TakenOut env b L x) ∨
    ∃ (f : F) (b' : B) (c : C), OneChange env b L b' ∧ env.conv f b' = some c ∧
      ∀ p x, .wrote p x ∈ (main env words ⟨q, .generic b, L, []⟩).1 →
        TakenOut env b L x ∨ (∃ L', x = env.bytes f c L') ∨ ∃ y z w n, EntData.find (env.scale y z w b L).2 n = some x := by
  have key : ∀ (n : Nat) (words : List Str) (q : Str),
      (∀ p x, .wrote p x ∈ (run env n words ⟨q, .generic b, L, []⟩).1 → TakenOut env b L x) ∨
      ∃ (f : F) (b' : B) (c : C), OneChange env b L b' ∧ env.conv f b' = some c ∧
        ∀ p x, .wrote p x ∈ (run env n words ⟨q, .generic b, L, []⟩).1 →
          TakenOut env b L x ∨ (∃ L', x = env.bytes f c L') ∨ ∃ y z w n, EntData.find (env.scale y z w b L).2 n = some x := by
    intro n
    induction n with
    | zero => intro words q; left; simp [run]
    | succ n ih =>
      intro words q
      match words with
      | [] => left; simp [run]
      | [_] => left; simp [run]
      | a :: r :: rs =>
        have hs := generic_step env q b L a (r :: rs)
        rw [run_cons]
        rcases hstep : step env ⟨q, .generic b, L, []⟩ a (r :: rs) with ⟨ev, st' | _ | _ | _⟩
        · rw [hstep] at hs
          rcases hs with ⟨h1, h2⟩ | ⟨f, b', c, hb, hc, h1, h2⟩
          · obtain ⟨e1, e2, e3⟩ := h2 _ _ rfl
            rename_i rest'
            obtain ⟨q', d', L', m'⟩ := st'
            simp only at e1 e2 e3
            subst e1 e2 e3
            rcases ih rest' q' with h | ⟨f, b', c, hb, hc, h⟩
            · left
              intro p x hx
              rcases List.mem_append.1 hx with hx | hx
              · exact h1 p x hx
              · exact h p x hx
            · right
              refine ⟨f, b', c, hb, hc, ?_⟩
              intro p x hx
              rcases List.mem_append.1 hx with hx | hx
              · exact .inl (h1 p x hx)
              · exact h p x hx
          · obtain ⟨e1, e2, e3⟩ := h2 _ _ rfl
            right
            refine ⟨f, b', c, hb, hc, ?_⟩
            intro p x hx
            rcases List.mem_append.1 hx with hx | hx
            · exact .inr (.inl (h1 p x hx))
            · rcases stuck_run env f c n _ _ e2 e1 p x hx with h | ⟨m, h⟩
              · exact .inr (.inl h)
              · rcases e3 with e3 | ⟨u, v, w, e3⟩
                · rw [e3] at h; exact .inl (.lump h)
                · rw [e3] at h; exact .inr (.inr ⟨u, v, w, m, h⟩)
        all_goals
          rw [hstep] at hs
          rcases hs with ⟨h1, -⟩ | ⟨f, b', c, hb, hc, h1, -⟩
          · exact .inl h1
          · exact .inr ⟨f, b', c, hb, hc, fun p x hx => .inr (.inl (h1 p x hx))⟩
  exact key _ words q

/-- The number of words that each command needs before the file. -/
def Spec.needed : Cmd → Nat
  | .svg | .check | .modelinfo | .extractEntities | .extractTextures | .decompile | .decompileGeomonly | .decompileIgnoreBrushes => 0
  | .replaceEntities | .compare | .convert | .replaceTextures | .decompileHull | .removeLump => 1
  | .settexinfo | .extractLump | .insertLump => 2
  | .scale | .findleaf => 3
  | .findfaces => 6

/-- **C207 (missing words).** On a map in generic form, a command with too few words behind it is undefined just if it is `--scale` with one word, or
the taking out or putting in of a BSPX lump without any. -/
theorem missing_words (env : Env B C F) {st : St B C F} {b : B} {a : Str} {k : Cmd} {rest : List Str} (hd : st.data = .generic b) (hk : command a = some k)
    (hr : rest ≠ []) (hn : rest.length ≤ needed k) :
    (step env st a rest).2 = .ub ↔ (k = .scale ∧ rest.length = 2) ∨ ((k = .extractLump ∨ k = .insertLump) ∧ rest.length = 1) := by
  obtain ⟨q, d, L, m⟩ := st
  simp only at hd
  subst hd
  have hwu : ∀ (g : F) (b : B) (L : Dict) (p : Str) (after : Next B C F → Next B C F) (rs : List Str), after = id ∨ after = ends →
      (writeAs env g ⟨q, .generic b, L, m⟩ p after rs).2 ≠ .ub := by
    intro g b L p after rs ha
    unfold writeAs convertTo
    simp only
    cases env.conv g b with
    | none => simp
    | some c => rcases ha with rfl | rfl <;> simp [ends]
  have hw := fun g b L p rs => hwu g b L p id rs (.inl rfl)
  have hwe := fun g b L p rs => hwu g b L p ends rs (.inr rfl)
  match rest, hr with
  | [x], _ =>
    unfold step
    rw [hk]
    cases k <;> simp only [needed, List.length_singleton] at hn ⊢ <;>
      simp [doScale, doReplaceEntities, doCompare, doConvert, doReplaceTextures, doFind, doSetTex, doDecompileHull, doExtractLump,
        doInsertLump, doRemoveLump, doDecompile, withBsp] at hn ⊢
    · cases env.wad x with
      | none => simp
      | some r => exact hw _ _ _ _ _
    · cases env.stoi x <;> simp
  | [x, y], _ =>
    unfold step
    rw [hk]
    cases k <;> simp only [needed, List.length_cons, List.length_nil] at hn ⊢ <;>
      simp [doScale, doFind, doSetTex, doExtractLump, doInsertLump, withBsp] at hn ⊢
    cases env.stoi x <;> cases env.stoi y <;> simp
    rename_i i j
    cases env.setTex i j b with
    | none => simp
    | some b' => exact hwe _ _ _ _ _
  | x :: y :: z :: rs, _ =>
    unfold step
    rw [hk]
    cases k <;> simp only [needed, List.length_cons] at hn ⊢ <;> simp [doScale, doFind, withBsp] at hn ⊢
    · exact hw _ _ _ _ _
    · rw [if_pos hn]
      simp
    · subst hn
      simp

/-- **C207 (enough words).** With enough words, a command on a map in generic form is undefined just if the entities of an empty text are taken out. -/
theorem enough_words (env : Env B C F) {st : St B C F} {b : B} {a : Str} {k : Cmd} {rest : List Str} (hd : st.data = .generic b) (hk : command a = some k)
    (hn : needed k < rest.length) : (step env st a rest).2 = .ub ↔ k = .extractEntities ∧ env.ents b = [] := by
  obtain ⟨q, d, L, m⟩ := st
  simp only at hd
  subst hd
  have hwu : ∀ (g : F) (b : B) (L : Dict) (p : Str) (after : Next B C F → Next B C F) (rs : List Str), after = id ∨ after = ends →
      (writeAs env g ⟨q, .generic b, L, m⟩ p after rs).2 ≠ .ub := by
    intro g b L p after rs ha
    unfold writeAs convertTo
    simp only
    cases env.conv g b with
    | none => simp
    | some c => rcases ha with rfl | rfl <;> simp [ends]
  have hw := fun g b L p rs => hwu g b L p id rs (.inl rfl)
  have hwe := fun g b L p rs => hwu g b L p ends rs (.inr rfl)
  unfold step
  rw [hk]
  cases k <;> simp only [needed] at hn ⊢
  case extractEntities =>
    simp only [doExtractEntities, withBsp, true_and]
    split <;> simp_all
  case svg => simp
  case check => simp [withBsp]
  case modelinfo => simp [withBsp]
  case extractTextures => simp [doExtractTextures, withBsp]
  case decompile => simp [doDecompile]
  case decompileGeomonly => simp [doDecompile]
  case decompileIgnoreBrushes => simp [doDecompile]
  case findfaces =>
    simp only [doFind, withBsp, reduceCtorEq, false_and, iff_false]
    rw [if_neg (by omega)]
    simp only
    split <;> simp
  case findleaf =>
    simp only [doFind, withBsp, reduceCtorEq, false_and, iff_false]
    rw [if_neg (by omega)]
    simp only
    split <;> simp
  all_goals simp only [reduceCtorEq, false_and, iff_false]
  case scale =>
    match rest, hn with
    | x :: y :: z :: rs, _ => exact hw _ _ _ _ _
    | [], hn | [_], hn | [_, _], hn => simp at hn
  case replaceEntities =>
    match rest, hn with
    | x :: y :: rs, _ =>
      simp only [doReplaceEntities]
      cases env.file x with
      | none => simp
      | some t => exact hw _ _ _ _ _
    | [], hn | [_], hn => simp at hn
  case compare =>
    match rest, hn with
    | x :: y :: rs, _ => simp only [doCompare, withBsp]; split <;> simp
    | [], hn | [_], hn => simp at hn
  case convert =>
    match rest, hn with
    | x :: y :: rs, _ =>
      simp only [doConvert]
      cases env.format x with
      | none => simp
      | some o => cases o with
        | none => simp
        | some f => exact hw _ _ _ _ _
    | [], hn | [_], hn => simp at hn
  case replaceTextures =>
    match rest, hn with
    | x :: rs, _ =>
      simp only [doReplaceTextures, withBsp]
      cases env.wad x with
      | none => simp
      | some r => exact hw _ _ _ _ _
    | [], hn => simp at hn
  case settexinfo =>
    match rest, hn with
    | x :: y :: rs, _ =>
      simp only [doSetTex, withBsp]
      cases env.stoi x <;> cases env.stoi y <;> simp
      rename_i i j
      cases env.setTex i j b with
      | none => simp
      | some b' => exact hwe _ _ _ _ _
    | [], hn | [_], hn => simp at hn
  case decompileHull =>
    match rest, hn with
    | x :: rs, _ => simp only [doDecompileHull, doDecompile]; cases env.stoi x <;> simp
    | [], hn => simp at hn
  case extractLump =>
    match rest, hn with
    | x :: y :: z :: rs, _ => simp only [doExtractLump]; cases EntData.find L x <;> simp
    | [], hn | [_], hn | [_, _], hn => simp at hn
  case insertLump =>
    match rest, hn with
    | x :: y :: z :: rs, _ =>
      simp only [doInsertLump]
      cases env.file y with
      | none => simp
      | some t => exact hwe _ _ _ _ _
    | [], hn | [_], hn | [_, _], hn => simp at hn
  case removeLump =>
    match rest, hn with
    | x :: y :: rs, _ =>
      simp only [doRemoveLump]
      cases EntData.find L x with
      | none => simp
      | some t => exact hwe _ _ _ _ _
    | [], hn | [_], hn => simp at hn

/-- **C207 (alone).** A single command that changes the map, with all its words, writes one file: the changed map, in the format of the source
(`--convert`: in the format that was asked for), over the source (`--scale` and `--convert`: to a file next to it). -/
theorem alone (env : Env B C F) {b : B} {L : Dict} {q a file : Str} {k : Cmd} (hk : command a = some k) :
    (∀ x y z c, k = .scale → env.conv env.load (env.scale x y z b L).1 = some c →
      main env [a, x, y, z, file] ⟨q, .generic b, L, []⟩ = ([.wrote ((splitExt q).1 ++ scaledBsp) (env.bytes env.load c (env.scale x y z b L).2)], .done)) ∧
    (∀ x t c, k = .replaceEntities → env.file x = some t → env.conv env.load (env.setEnts t b) = some c →
      main env [a, x, file] ⟨q, .generic b, L, []⟩ = ([.wrote q (env.bytes env.load c L)], .done)) ∧
    (∀ x f c, k = .convert → env.format x = some (some f) → env.conv f b = some c →
      main env [a, x, file] ⟨q, .generic b, L, []⟩ = ([.wrote ((splitExt q).1 ++ 45 :: x) (env.bytes f c L)], .done)) ∧
    (∀ x y m n b' c, k = .settexinfo → env.stoi x = some m → env.stoi y = some n → env.setTex m n b = some b' → env.conv env.load b' = some c →
      main env [a, x, y, file] ⟨q, .generic b, L, []⟩ = ([.wrote q (env.bytes env.load c L)], .done)) ∧
    (∀ x y t c, k = .insertLump → env.file y = some t → env.conv env.load b = some c →
      main env [a, x, y, file] ⟨q, .generic b, L, []⟩ = ([.wrote q (env.bytes env.load c (EntData.set L x t))], .done)) ∧
    (∀ x t c, k = .removeLump → EntData.find L x = some t → env.conv env.load b = some c →
      main env [a, x, file] ⟨q, .generic b, L, []⟩ = ([.wrote q (env.bytes env.load c (EntData.remove L x))], .done)) := by
  refine ⟨?_, ?_, ?_, ?_, ?_, ?_⟩
  · rintro x y z c rfl hc
    show run env 5 _ _ = _
    rw [run_cons]
    simp only [step, hk, doScale, withBsp, writeAs, convertTo, hc, id, run, List.append_nil]
  · rintro x t c rfl hf hc
    show run env 3 _ _ = _
    rw [run_cons]
    simp only [step, hk, doReplaceEntities, hf, writeAs, convertTo, hc, id, run, List.append_nil]
  · rintro x f c rfl hf hc
    show run env 3 _ _ = _
    rw [run_cons]
    simp only [step, hk, doConvert, hf, writeAs, convertTo, hc, id, run, List.append_nil]
  · rintro x y m n b' c rfl hx hy hs hc
    show run env 4 _ _ = _
    rw [run_cons]
    simp only [step, hk, doSetTex, withBsp, hx, hy, hs, writeAs, convertTo, hc, ends]
  · rintro x y t c rfl hf hc
    show run env 4 _ _ = _
    rw [run_cons]
    simp only [step, hk, doInsertLump, hf, writeAs, convertTo, hc, ends]
  · rintro x t c rfl hf hc
    show run env 3 _ _ = _
    rw [run_cons]
    simp only [step, hk, doRemoveLump, hf, writeAs, convertTo, hc, ends]

/-- **C207, defects of the counts.** `--scale` with one word, and the commands for BSPX lumps without words, read a null pointer. `--scale` with two
words takes the name of the file for the third factor and writes a map. -/
theorem null_words (env : Env B C F) (st : St B C F) (x file : Str) :
    doScale env st [x, file] = ([], .ub) ∧ doExtractLump st [file] = ([], .ub) ∧ doInsertLump env st [file] = ([], .ub) := ⟨rfl, rfl, rfl⟩

theorem scale_takes_file (env : Env B C F) {st : St B C F} {b : B} {c : C} (x y file : Str) (hd : st.data = .generic b)
    (hc : env.conv env.load (env.scale x y file b st.lumps).1 = some c) :
    (doScale env st [x, y, file]).1 = [.wrote ((splitExt st.path).1 ++ scaledBsp) (env.bytes env.load c (env.scale x y file b st.lumps).2)] := by
  simp [doScale, withBsp, hd, writeAs, convertTo, hc]

/-- **C207, a defect.** After `--extract-entities` the source is the entity file: a change that should be written to the map is written over that. -/
theorem written_over_entities (env : Env B C F) {b : B} {c : C} {a1 a2 ent file t q : Str} {L : Dict} (h1 : command a1 = some .extractEntities)
    (h2 : command a2 = some .replaceEntities) (he : env.ents b ≠ []) (hf : env.file ent = some t) (hc : env.conv env.load (env.setEnts t b) = some c) :
    main env [a1, a2, ent, file] ⟨q, .generic b, L, []⟩ =
      ([.wrote (replaceExt q dotEnt) (env.ents b), .wrote (replaceExt q dotEnt) (env.bytes env.load c L)], .done) := by
  have s1 : step env ⟨q, .generic b, L, []⟩ a1 [a2, ent, file] =
      ([.wrote (replaceExt q dotEnt) (env.ents b)], .go ⟨replaceExt q dotEnt, .generic b, L, []⟩ [a2, ent, file]) := by
    simp only [step, h1, doExtractEntities, withBsp, if_neg he]
  have s2 : step env ⟨replaceExt q dotEnt, .generic b, L, []⟩ a2 [ent, file] =
      ([.wrote (replaceExt q dotEnt) (env.bytes env.load c L)], .go ⟨replaceExt q dotEnt, .as env.load c, L, []⟩ [file]) := by
    simp only [step, h2, doReplaceEntities, hf, writeAs, convertTo, hc, id]
  show run env 4 _ _ = _
  rw [run_cons, s1]
  simp only
  rw [run_cons, s2]
  rfl

/-- **C207, a defect.** Of two conversions the second writes the first format again, under the name of the second. -/
theorem second_conversion_wrong (env : Env B C F) {b : B} {c : C} {f g : F} {a x y file q : Str} {L : Dict} (h : command a = some .convert)
    (hx : env.format x = some (some f)) (hy : env.format y = some (some g)) (hc : env.conv f b = some c) :
    ∃ p, main env [a, x, a, y, file] ⟨q, .generic b, L, []⟩ =
      ([.wrote ((splitExt q).1 ++ 45 :: x) (env.bytes f c L), .wrote (p ++ 45 :: y) (env.bytes f c L)], .done) := by
  have s1 : step env ⟨q, .generic b, L, []⟩ a [x, a, y, file] =
      ([.wrote ((splitExt q).1 ++ 45 :: x) (env.bytes f c L)], .go ⟨(splitExt q).1 ++ 45 :: x, .as f c, L, []⟩ [a, y, file]) := by
    simp only [step, h, doConvert, hx, writeAs, convertTo, hc, id]
  have s2 : ∀ q', step env ⟨q', .as f c, L, []⟩ a [y, file] =
      ([.wrote ((splitExt q').1 ++ 45 :: y) (env.bytes f c L)], .go ⟨(splitExt q').1 ++ 45 :: y, .as f c, L, []⟩ [file]) := by
    intro q'
    simp only [step, h, doConvert, hy, writeAs, convertTo, id]
  refine ⟨(splitExt ((splitExt q).1 ++ 45 :: x)).1, ?_⟩
  show run env 5 _ _ = _
  rw [run_cons, s1]
  simp only
  rw [run_cons, s2]
  rfl

/-- **C207, a defect.** If limits are exceeded the file is opened, and so emptied, before the program fails: here the source itself. -/
theorem source_emptied (env : Env B C F) {st : St B C F} {b : B} {ent file t : Str} (hd : st.data = .generic b) (hf : env.file ent = some t)
    (hc : env.conv env.load (env.setEnts t b) = none) : doReplaceEntities env st [ent, file] = ([.cut st.path], .failed) := by
  simp only [doReplaceEntities, hd, hf, writeAs, convertTo, hc]

/-- **C207, a defect.** After a change of the map, replacing the entities takes the source for a map file that has no entities. -/
theorem replace_after_change_ub (env : Env B C F) {st : St B C F} {f : F} {c : C} {ent file t : Str} {es : List MEnt} (hd : st.data = .as f c)
    (hm : st.map = []) (hf : env.file ent = some t) (hl : Replace.load t = .ok es) : doReplaceEntities env st [ent, file] = ([], .ub) := by
  simp only [doReplaceEntities, hd, hf, hl, hm]
  rfl

/-- **C207 (lumps).** A lump that was put in is what is taken out, and the others are as before; one that was removed can't be taken out. -/
theorem lumps_kept (st : St B C F) (n d o file : Str) (m : Str) :
    doExtractLump { st with lumps := EntData.set st.lumps n d } [m, o, file] = if m = n then ([.wrote o d], .done) else doExtractLump st [m, o, file] := by
  have := EntData.find_set st.lumps n d m
  unfold doExtractLump
  simp only [this]
  split_ifs <;> rfl

theorem lump_removed (st : St B C F) (n o file : Str) (m : Str) (hu : (EntData.keys st.lumps).Nodup) :
    doExtractLump { st with lumps := EntData.remove st.lumps n } [m, o, file] = if m = n then ([], .failed) else doExtractLump st [m, o, file] := by
  have := EntData.find_remove st.lumps hu n m
  unfold doExtractLump
  simp only [this]
  split_ifs <;> rfl

/-! ### A case -/

/-- Maps are numbers; the entities are their text, the file is the map, the format and the number of lumps. -/
def exEnv : Env Nat Nat Bool where
  file := fun n => if n = [101] then some [120] else none
  scale := fun _ _ _ b L => (b + 100, L)
  setEnts := fun t _ => t.length
  ents := fun b => [48 + b.toUInt8]
  wad := fun _ => none
  exportWad := fun b => [b.toUInt8]
  svg := fun b => [b.toUInt8]
  format := fun n => if n = [50] then some (some true) else if n = [51] then some (some false) else none
  conv := fun _ b => if b < 1000 then some b else none
  bytes := fun f c L => [if f then 1 else 0, c.toUInt8, L.length.toUInt8]
  load := false
  stof := fun _ => true
  stoi := fun _ => some 0
  decimal := fun _ => [48]
  setTex := fun _ _ b => some b
  decompile := fun _ _ b => [b.toUInt8]
  refBsp := fun _ => true

def exSt : St Nat Nat Bool := ⟨[97] ++ dotBsp, .generic 5, [], []⟩

example : main exEnv [[45, 45, 115, 118, 103], [45, 45, 99, 104, 101, 99, 107], [97] ++ dotBsp] exSt = ([.wrote ([97] ++ dotSvg) [5]], .done) := by
  decide +kernel

example : AllRead exEnv 5 [97] [[45, 45, 115, 118, 103], [45, 45, 99, 104, 101, 99, 107]] [.wrote ([97] ++ dotSvg) [5]] ∧ splitExt exSt.path = ([97], dotBsp) :=
  ⟨.file (c := .svg) (by decide +kernel) .svg (.silent (c := .check) (by decide +kernel) .check .nil), by decide +kernel⟩

example : main exEnv [[45, 45, 101, 120, 116, 114, 97, 99, 116, 45, 101, 110, 116, 105, 116, 105, 101, 115], [45, 45, 114, 101, 112, 108, 97, 99, 101, 45, 101, 110, 116, 105, 116, 105, 101, 115], [101], [97] ++ dotBsp] exSt =
    ([.wrote ([97] ++ dotEnt) [53], .wrote ([97] ++ dotEnt) [0, 1, 0]], .done) := by decide +kernel

example : main exEnv [[45, 45, 99, 111, 110, 118, 101, 114, 116], [50], [45, 45, 99, 111, 110, 118, 101, 114, 116], [51], [97] ++ dotBsp] exSt =
    ([.wrote [97, 45, 50] [1, 5, 0], .wrote [97, 45, 50, 45, 51] [1, 5, 0]], .done) := by decide +kernel

end Verif.BspUtil.Commands
