import Verif.Archive.SearchLemmas

/-!
C129 to C131: where files are searched for, what is registered, and whether searching changes anything.
-/

namespace Verif.Archive

open Verif
open Verif.Cmdlib (Str)
open Verif.Cmdlib.Spec (SameText)

/-! ### Preservation by calls -/

/-- An archive as it was opened, whatever has been loaded from it since. -/
def Opened (d : Disk) (a : Arc) : Prop :=
  ∃ id bytes, d a.path = .file id bytes ∧ ArchiveFile a.path bytes ∧
    a.pack.files = build [] (directoryOf a.path bytes) ∧ ∀ w : ∀ e ∈ directoryOf a.path bytes, Within bytes e, Healthy bytes a.pack

theorem directoryOf_noNul (p : Path) (bytes : List Byte) : ∀ e ∈ directoryOf p bytes, (0 : UInt8) ∉ e.name := by
  unfold directoryOf
  split
  · exact directory_noNul _ _ _ _
  · exact directory_noNul _ _ _ _

theorem opened_new {d : Disk} {p : Path} {ext : Bool} {id : Nat} {bytes : List Byte} {pack : Pack}
    (hd : d p = .file id bytes)
    (ho : (SameText p.extension [46, 112, 97, 107] ∧ openPak bytes = .ok pack) ∨
      (¬ SameText p.extension [46, 112, 97, 107] ∧ SameText p.extension [46, 119, 97, 100] ∧
        openWad bytes = .ok pack)) : Opened d ⟨p, ext, pack⟩ := by
  refine ⟨id, bytes, hd, ?_⟩
  rcases ho with ⟨hs, ho⟩ | ⟨hs, hw, ho⟩
  · have hsound := ((open_pak_partial bytes).1).mp ⟨pack, ho⟩
    obtain ⟨q, hq⟩ := openPak_sound hsound
    rw [hq] at ho
    cases ho
    refine ⟨Or.inl ⟨hs, hsound⟩, ?_, fun _ => ⟨rfl, rfl⟩⟩
    simp only [directoryOf, if_pos hs]
  · have hsound := ((open_wad_partial bytes).1).mp ⟨pack, ho⟩
    obtain ⟨q, hq⟩ := openWad_sound hsound
    rw [hq] at ho
    cases ho
    refine ⟨Or.inr ⟨hs, hw, hsound⟩, ?_, fun _ => ⟨rfl, rfl⟩⟩
    simp only [directoryOf, if_neg hs]

theorem opened_load {d : Disk} {a : Arc} (h : Opened d a) (name : Str) :
    Opened d { a with pack := (a.pack.load name).2 } := by
  obtain ⟨id, bytes, hd, ha, hf, hh⟩ := h
  exact ⟨id, bytes, hd, ha, by rw [load_files]; exact hf, fun w => (load_healthy hf (hh w) w name).1⟩

/-- What a call other than `clear` keeps: everything registered, in its order, with at most one more in front. -/
def Extends (st st' : State) : Prop :=
  (∃ l, l.length ≤ 1 ∧ st'.dirs = l ++ st.dirs) ∧
  ∃ l, l.length ≤ 1 ∧ st'.arcs.map (fun a => (a.path, a.external, a.pack.files)) =
    l ++ st.arcs.map (fun a => (a.path, a.external, a.pack.files))

theorem Extends.refl (st : State) : Extends st st := ⟨⟨[], by simp, rfl⟩, ⟨[], by simp, rfl⟩⟩

/-- The state is in order and its archives are as opened. -/
def Good (d : Disk) (st : State) : Prop := Registry d st ∧ ∀ a ∈ st.arcs, Opened d a

theorem added_good {d : Disk} {st st' : State} {p : Path} {ext : Bool} {r : Option Ref} (hg : Good d st)
    (h : Added d st ext p st' r) : Good d st' ∧ Extends st st' := by
  obtain ⟨hr, ho⟩ := hg
  cases h with
  | refused => exact ⟨⟨hr, ho⟩, Extends.refl st⟩
  | dirKnown a ha hs hd => exact ⟨⟨hr, ho⟩, Extends.refl st⟩
  | arcKnown a ha hs => exact ⟨⟨hr, ho⟩, Extends.refl st⟩
  | dirNew hd hn =>
    refine ⟨⟨⟨?_, hr.arcs, ?_, hr.arcsOnce⟩, ho⟩, ⟨[⟨p, ext⟩], by simp, rfl⟩, ⟨[], by simp, rfl⟩⟩
    · intro a ha
      rcases List.mem_cons.mp ha with rfl | ha
      · exact hd
      · exact hr.dirs a ha
    · exact List.Pairwise.cons (fun a ha => (hn a ha).symm) hr.dirsOnce
  | arcNew id bytes pack hd hn hop =>
    refine ⟨⟨⟨hr.dirs, ?_, hr.dirsOnce, ?_⟩, ?_⟩, ⟨[], by simp, rfl⟩,
      ⟨[(p, ext, pack.files)], by simp, rfl⟩⟩
    · intro a ha
      rcases List.mem_cons.mp ha with rfl | ha
      · exact ⟨id, bytes, hd⟩
      · exact hr.arcs a ha
    · exact List.Pairwise.cons (fun a ha => (hn a ha).symm) hr.arcsOnce
    · intro a ha
      rcases List.mem_cons.mp ha with rfl | ha
      · exact opened_new hd hop
      · exact ho a ha

theorem loadArc_keeps (d : Disk) (arcs : List Arc) (path : Path) (name : Str) :
    (loadArc arcs path name).2.map (fun a => (a.path, a.external, a.pack.files)) =
      arcs.map (fun a => (a.path, a.external, a.pack.files)) ∧
    ((∀ a ∈ arcs, Opened d a) → ∀ a ∈ (loadArc arcs path name).2, Opened d a) := by
  induction arcs with
  | nil => exact ⟨rfl, fun _ a ha => absurd ha (by simp [loadArc])⟩
  | cons b l ih =>
    unfold loadArc
    by_cases hb : b.path = path
    · rw [if_pos hb]
      refine ⟨by simp only [List.map_cons, load_files], ?_⟩
      intro h a ha
      rcases List.mem_cons.mp ha with rfl | ha
      · exact opened_load (h b (List.mem_cons_self ..)) name
      · exact h a (List.mem_cons_of_mem _ ha)
    · rw [if_neg hb]
      refine ⟨by simp only [List.map_cons, ih.1], ?_⟩
      intro h a ha
      rcases List.mem_cons.mp ha with rfl | ha
      · exact h a (List.mem_cons_self ..)
      · exact ih.2 (fun a ha => h a (List.mem_cons_of_mem _ ha)) a ha

theorem registry_of_map {d : Disk} {st : State} {arcs : List Arc} (h : Registry d st)
    (hm : arcs.map (fun a => (a.path, a.external, a.pack.files)) =
      st.arcs.map (fun a => (a.path, a.external, a.pack.files))) : Registry d { st with arcs := arcs } := by
  have hp : arcs.map (·.path) = st.arcs.map (·.path) := by
    have := congrArg (List.map Prod.fst) hm
    simpa [List.map_map, Function.comp_def] using this
  refine ⟨h.dirs, ?_, h.dirsOnce, ?_⟩
  · intro a ha
    have : a.path ∈ st.arcs.map (·.path) := hp ▸ List.mem_map_of_mem (f := (·.path)) ha
    obtain ⟨b, hb, he⟩ := List.mem_map.mp this
    obtain ⟨id, bytes, hd⟩ := h.arcs b hb
    exact ⟨id, bytes, by rw [← he]; exact hd⟩
  · have h1 : (st.arcs.map (·.path)).Pairwise fun p q => (d p).id? ≠ (d q).id? :=
      List.pairwise_map.mpr h.arcsOnce
    rw [← hp] at h1
    exact (List.pairwise_map (f := fun a : Arc => a.path)).mp h1

theorem loadAt_good {d : Disk} {st : State} (hg : Good d st) (r : Option (Ref × Path)) :
    Good d (loadAt d st r).2 ∧ (loadAt d st r).2.dirs = st.dirs ∧
      (loadAt d st r).2.arcs.map (fun a => (a.path, a.external, a.pack.files)) =
        st.arcs.map (fun a => (a.path, a.external, a.pack.files)) := by
  cases r with
  | none => exact ⟨hg, rfl, rfl⟩
  | some r =>
    obtain ⟨ref, p⟩ := r
    cases ref with
    | absrel => exact ⟨hg, rfl, rfl⟩
    | dir path => exact ⟨hg, rfl, rfl⟩
    | arc path =>
      have hk := loadArc_keeps d st.arcs path p.text
      exact ⟨⟨registry_of_map hg.1 hk.1, hk.2 hg.2⟩, rfl, hk.1⟩

theorem where_cases {d : Disk} {st st' : State} {p : Path} {loose : Bool} {r : Option (Ref × Path)}
    (h : Archive.where d st p loose = .ok (st', r)) :
    (splitPath d p = none ∧ st' = st ∧ r = search d st p loose) ∨
    ∃ a f ref, splitPath d p = some (a, f) ∧ addArchive d st a false = .ok (st', ref) ∧
      r = match ref with
        | some ref => some (ref, f)
        | none => search d st' p loose := by
  unfold Archive.where at h
  cases hs : splitPath d p with
  | none =>
    rw [hs] at h
    simp only [Outcome.ok.injEq, Prod.mk.injEq] at h
    exact Or.inl ⟨rfl, h.1.symm, h.2.symm⟩
  | some af =>
    obtain ⟨a, f⟩ := af
    rw [hs] at h
    simp only at h
    rw [Outcome.bind_eq_ok] at h
    obtain ⟨⟨st1, ref⟩, h1, h2⟩ := h
    right
    cases ref with
    | none =>
      simp only [Outcome.pure_eq, Outcome.ok.injEq, Prod.mk.injEq] at h2
      exact ⟨a, f, none, rfl, by rw [← h2.1]; exact h1, by rw [← h2.1]; exact h2.2.symm⟩
    | some ref =>
      simp only [Outcome.pure_eq, Outcome.ok.injEq, Prod.mk.injEq] at h2
      exact ⟨a, f, some ref, rfl, by rw [← h2.1]; exact h1, h2.2.symm⟩

theorem where_good {d : Disk} {st st' : State} {p : Path} {loose : Bool} {r : Option (Ref × Path)}
    (hg : Good d st) (h : Archive.where d st p loose = .ok (st', r)) : Good d st' ∧ Extends st st' := by
  rcases where_cases h with ⟨_, rfl, _⟩ | ⟨a, f, ref, _, h1, _⟩
  · exact ⟨hg, Extends.refl _⟩
  · exact added_good hg (addArchive_added h1)

theorem step_good {d : Disk} {st st' : State} {c : Call} (hg : Good d st) (h : step d st c = .ok st') :
    Good d st' ∧ (c ≠ .clear → Extends st st') := by
  cases c with
  | clear =>
    simp only [step, Outcome.ok.injEq] at h
    subst h
    refine ⟨⟨⟨?_, ?_, ?_, ?_⟩, ?_⟩, fun h => absurd rfl h⟩ <;> simp [Archive.clear]
  | add p ext =>
    simp only [step, Outcome.bind_eq_ok, Outcome.pure_eq, Outcome.ok.injEq] at h
    obtain ⟨⟨st1, r⟩, h1, rfl⟩ := h
    have := added_good hg (addArchive_added h1)
    exact ⟨this.1, fun _ => this.2⟩
  | «where» p loose =>
    simp only [step, Outcome.bind_eq_ok, Outcome.pure_eq, Outcome.ok.injEq] at h
    obtain ⟨⟨st1, r⟩, h1, rfl⟩ := h
    have := where_good hg h1
    exact ⟨this.1, fun _ => this.2⟩
  | load p loose =>
    simp only [step, Archive.load, Outcome.bind_eq_ok, Outcome.pure_eq, Outcome.ok.injEq] at h
    obtain ⟨⟨data, st2⟩, ⟨⟨st1, r⟩, h1, h2⟩, rfl⟩ := h
    have hw := where_good hg h1
    have hl := loadAt_good hw.1 r
    have e : st2 = (loadAt d st1 r).2 := by rw [h2]
    simp only
    rw [e]
    refine ⟨hl.1, fun _ => ⟨?_, ?_⟩⟩
    · obtain ⟨l, hl', he⟩ := hw.2.1
      exact ⟨l, hl', by rw [hl.2.1, he]⟩
    · obtain ⟨l, hl', he⟩ := hw.2.2
      exact ⟨l, hl', by rw [hl.2.2, he]⟩

theorem run_good {d : Disk} (calls : List Call) : ∀ {st st' : State}, Good d st → run d st calls = .ok st' →
    Good d st' := by
  induction calls with
  | nil =>
    intro st st' hg h
    simp only [run, Outcome.ok.injEq] at h
    exact h ▸ hg
  | cons c l ih =>
    intro st st' hg h
    simp only [run, Outcome.bind_eq_ok] at h
    obtain ⟨st1, h1, h2⟩ := h
    exact ih (step_good hg h1).1 h2

theorem clear_good (d : Disk) : Good d clear := by
  refine ⟨⟨?_, ?_, ?_, ?_⟩, ?_⟩ <;> simp [clear]

/-! ### C129: the order of the search -/

/-- C129, without a direct archive path: the answer is that of the first place that has the file. Asked to prefer
loose files, the places are the path itself, then the registered directories, then the registered archives;
otherwise archives come first, then directories, then the path itself. The last registered comes first. -/
theorem search_order_partial (d : Disk) (st : State) (p : Path) (loose : Bool) (hp : Plain d p) :
    ∃ r, Archive.where d st p loose = .ok (st, r) ∧ FirstOf d p (order st p loose) r := by
  refine ⟨search d st p loose, ?_, search_first d st p loose⟩
  unfold Archive.where
  rw [split_plain hp]

/-- C129, with a direct archive path: if some beginning of the path is a regular file that can be registered as an
archive, the answer is that archive and the rest of the path, whatever else exists, and whether or not the archive
contains such a file. -/
theorem search_direct (d : Disk) (st st' : State) (p : Path) (loose : Bool) (r : Option (Ref × Path)) (n : Nat)
    (id : Nat) (bytes : List Byte) (hn : 0 < n) (hn' : n < p.parts.length)
    (hd : d ⟨p.abs, p.parts.take n⟩ = .file id bytes)
    (honly : ∀ m, 0 < m → m < p.parts.length → m ≠ n → ∀ id bytes, d ⟨p.abs, p.parts.take m⟩ ≠ .file id bytes)
    (ref : Ref) (hadd : addArchive d st ⟨p.abs, p.parts.take n⟩ false = .ok (st', some ref))
    (h : Archive.where d st p loose = .ok (st', r)) :
    r = some (ref, ⟨false, p.parts.drop n⟩) := by
  rcases where_cases h with ⟨hs, _, _⟩ | ⟨a, f, ref', hs, h1, h2⟩
  · have := split_isSome d p n hn (p.parts.length - 1) (by omega) id bytes hd
    unfold splitPath at hs
    rw [hs] at this
    cases this
  · obtain ⟨k, hk, hkn, ha, hf, id', bytes', hda⟩ := splitLoop_some d p _ a f hs
    have hkeq : k = n := by
      by_contra hne
      exact honly k hk (by omega) hne id' bytes' (ha ▸ hda)
    subst hkeq
    rw [ha] at h1
    rw [h1] at hadd
    simp only [Outcome.ok.injEq, Prod.mk.injEq] at hadd
    rw [hadd.2] at h2
    rw [h2, hf]

/-- The components of a path. -/
def path (l : List String) : Path := ⟨false, l.map str⟩

/-- A pak with one file `a` holding a 1. -/
def pakA : List Byte :=
  ascii "PACK" ++ leEncode 4 13 ++ leEncode 4 64 ++ [1] ++ field 56 "a" ++ leEncode 4 12 ++ leEncode 4 1

/-- A disk with `p.pak`, a file `a`, and a directory `dir` in which `a` is a directory. -/
def disk1 : Disk := fun p =>
  if p = path ["p.pak"] then .file 1 pakA
  else if p = path ["a"] then .file 2 [2]
  else if p = path ["dir"] then .dir 3
  else if p = path ["dir", "a"] then .dir 4
  else .missing

/-- C129, the order include/common/fs.hh:71-80 documents for `where(p)`: a file at the path itself comes first. -/
def DocumentedOrder : Prop := ∀ (d : Disk) (calls : List Call) (st st' : State) (p : Path) (r : Option (Ref × Path)),
  run d clear calls = .ok st → Plain d p → Archive.where d st p false = .ok (st', r) →
    (∃ id bytes, d p = .file id bytes) → r = some (.absrel, p)

theorem disk1_pak : ∃ q, openPak pakA = .ok ⟨[(str "a", 12, 1)], ⟨pakA, q, false⟩⟩ := by
  have hu : u32At pakA 4 = 13 ∧ u32At pakA 8 / 64 = 1 := by decide +kernel
  have hs : PakSound pakA := by
    refine ⟨by decide +kernel, by decide +kernel, ?_⟩
    rw [hu.1, hu.2]
    intro i hi
    have hall : ∀ i < 1, 13 + pakLayout.width * (i + 1) ≤ pakA.length ∧
        (0 : Byte) ∈ slice pakA (13 + pakLayout.width * i + pakLayout.nameAt) pakLayout.nameLen := by
      decide +kernel
    exact hall i hi
  obtain ⟨q, hq⟩ := openPak_sound hs
  have : build [] (pakDirectory pakA) = [(str "a", 12, 1)] := by decide +kernel
  rw [this] at hq
  exact ⟨q, hq⟩

theorem disk1_added : ∃ q, run disk1 clear [.add (path ["p.pak"]) false] =
    .ok ⟨[], [⟨path ["p.pak"], false, ⟨[(str "a", 12, 1)], ⟨pakA, q, false⟩⟩⟩]⟩ := by
  obtain ⟨q, hq⟩ := disk1_pak
  refine ⟨q, ?_⟩
  have hd : disk1 (path ["p.pak"]) = .file 1 pakA := by simp [disk1]
  have he : Cmdlib.iequals (path ["p.pak"]).extension [46, 112, 97, 107] = true := by decide +kernel
  have hne : (path ["p.pak"]).isEmpty = false := by decide +kernel
  simp only [run, step, addArchive, hne, Bool.false_eq_true, if_false, hd, Node.there, Bool.not_true, addInternal,
    Node.isDir, clear, List.find?_nil, he, if_true, hq, Outcome.ok_bind, Outcome.pure_eq]

/-- The search path once `p.pak` is registered and `a` has been loaded from it. -/
def loaded : State := ⟨[], [⟨path ["p.pak"], false, ⟨[(str "a", 12, 1)], ⟨pakA, 13, false⟩⟩⟩]⟩

theorem disk1_plain : Plain disk1 (path ["a"]) := by
  intro n h0 h1
  simp [path] at h1
  omega

/-- C129, first negation: by default a registered archive comes before the file itself. -/
theorem default_order_differs : ¬ DocumentedOrder := by
  intro h
  obtain ⟨q, hrun⟩ := disk1_added
  obtain ⟨r, hw, hf⟩ := search_order_partial disk1
    ⟨[], [⟨path ["p.pak"], false, ⟨[(str "a", 12, 1)], ⟨pakA, q, false⟩⟩⟩]⟩ (path ["a"]) false disk1_plain
  have hr := h disk1 _ _ _ _ r hrun disk1_plain hw ⟨2, [2], by decide +kernel⟩
  subst hr
  obtain ⟨l, pl, m, hs, hhas, hans, hno⟩ := hf
  have horder : order ⟨[], [⟨path ["p.pak"], false, ⟨[(str "a", 12, 1)], ⟨pakA, q, false⟩⟩⟩]⟩ (path ["a"]) false =
      [.arc ⟨path ["p.pak"], false, ⟨[(str "a", 12, 1)], ⟨pakA, q, false⟩⟩⟩, .loose] := rfl
  rw [horder] at hs
  cases l with
  | nil =>
    simp only [List.nil_append, List.cons.injEq] at hs
    rw [← hs.1] at hans
    simp [Place.answer] at hans
  | cons x l =>
    simp only [List.cons_append, List.cons.injEq] at hs
    apply hno x (by simp)
    rw [← hs.1]
    have : (find [(str "a", 12, 1)] (path ["a"]).text).isSome = true := by decide +kernel
    exact this

/-- C129, the claim that a search finds files: what it answers can be loaded. -/
def AnswersLoad : Prop := ∀ (d : Disk) (calls : List Call) (st st' : State) (p : Path) (r : Ref × Path),
  run d clear calls = .ok st → Plain d p → Archive.where d st p true = .ok (st', some r) →
    ((loadAt d st' (some r)).1).isSome = true

/-- C129, second negation: a subdirectory of a registered directory is taken for the file, and hides the file of
that name in every archive. -/
theorem directory_hides_file : ¬ AnswersLoad ∧
    Archive.load (fun p => if p = path ["a"] then .missing else disk1 p)
      ⟨[⟨path ["dir"], false⟩], [⟨path ["p.pak"], false, ⟨[(str "a", 12, 1)], ⟨pakA, 0, false⟩⟩⟩]⟩
      (path ["a"]) true =
    .ok (none, ⟨[⟨path ["dir"], false⟩], [⟨path ["p.pak"], false, ⟨[(str "a", 12, 1)], ⟨pakA, 0, false⟩⟩⟩]⟩) := by
  constructor
  · intro h
    have := h (fun p => if p = path ["a"] then .missing else disk1 p) [.add (path ["dir"]) false]
      ⟨[⟨path ["dir"], false⟩], []⟩ ⟨[⟨path ["dir"], false⟩], []⟩ (path ["a"]) (.dir (path ["dir"]), path ["a"])
      (by decide +kernel) (by intro n h0 h1; simp [path] at h1; omega) (by decide +kernel)
    revert this
    decide +kernel
  · decide +kernel

example : Plain disk1 (path ["a"]) ∧ Archive.where disk1 clear (path ["a"]) false =
    .ok (clear, some (.absrel, path ["a"])) := ⟨disk1_plain, by decide +kernel⟩

/-! ### C130: what is registered -/

/-- C130, in every history: the registered directories are directories, the registered archives are files, and none
is registered twice. -/
theorem registered_once (d : Disk) (calls : List Call) (st : State) (h : run d clear calls = .ok st) :
    Registry d st := (run_good calls (clear_good d) h).1

/-- C130, in every history: a call other than `clear` keeps everything registered and its order, and puts at most one
new directory or archive in front. -/
theorem calls_extend (d : Disk) (calls : List Call) (st st' : State) (c : Call) (h : run d clear calls = .ok st)
    (hc : step d st c = .ok st') (hne : c ≠ .clear) : Extends st st' :=
  (step_good (run_good calls (clear_good d) h) hc).2 hne

/-- C130: registering a path that works, once more, gives the same archive and changes nothing, even with another
flag. -/
theorem add_again (d : Disk) (st st' : State) (p : Path) (ext ext' : Bool) (r : Ref)
    (h : addArchive d st p ext = .ok (st', some r)) : addArchive d st' p ext' = .ok (st', some r) :=
  addArchive_again h ext' (Or.inl (by simp))

/-- C130: registering what is refused changes nothing. -/
theorem add_refused (d : Disk) (st st' : State) (p : Path) (ext : Bool)
    (h : addArchive d st p ext = .ok (st', none)) : st' = st := by
  have := addArchive_added h
  cases this
  rfl

/-- C130: an archive, once registered, gives the bytes its file on disk names, for all loads in the history and to
come. -/
theorem registered_faithful (d : Disk) (hw : Whole d) (calls : List Call) (st : State)
    (h : run d clear calls = .ok st) (a : Arc) (ha : a ∈ st.arcs) :
    ∃ id bytes, d a.path = .file id bytes ∧ Faithful bytes (directoryOf a.path bytes) a.pack := by
  obtain ⟨id, bytes, hd, haf, hf, hh⟩ := (run_good calls (clear_good d) h).2 a ha
  have hwithin := hw _ _ _ hd haf
  exact ⟨id, bytes, hd, faithful_of hf (hh hwithin) hwithin (directoryOf_noNul _ _)⟩

theorem disk1_whole : Whole disk1 := by
  intro p id bytes hd ha
  have hcases : p = path ["p.pak"] ∧ bytes = pakA ∨ p = path ["a"] ∧ bytes = [2] := by
    unfold disk1 at hd
    by_cases h1 : p = path ["p.pak"]
    · rw [if_pos h1] at hd; cases hd; exact Or.inl ⟨h1, rfl⟩
    · rw [if_neg h1] at hd
      by_cases h2 : p = path ["a"]
      · rw [if_pos h2] at hd; cases hd; exact Or.inr ⟨h2, rfl⟩
      · rw [if_neg h2] at hd
        by_cases h3 : p = path ["dir"]
        · rw [if_pos h3] at hd; cases hd
        · rw [if_neg h3] at hd
          by_cases h4 : p = path ["dir", "a"]
          · rw [if_pos h4] at hd; cases hd
          · rw [if_neg h4] at hd; cases hd
  rcases hcases with ⟨rfl, rfl⟩ | ⟨rfl, rfl⟩
  · have he : SameText (path ["p.pak"]).extension [46, 112, 97, 107] := by
      rw [Cmdlib.sameText_iff]; decide +kernel
    have hdir : pakDirectory pakA = [⟨str "a", 12, 1⟩] := by decide +kernel
    simp only [directoryOf, if_pos he, hdir]
    intro e hmem
    rw [List.mem_singleton] at hmem
    subst hmem
    have : pakA.length = 77 := by decide +kernel
    simp [Within, this]
  · rcases ha with ⟨he, _⟩ | ⟨_, he, _⟩ <;>
      · rw [Cmdlib.sameText_iff] at he
        exfalso
        revert he
        decide +kernel

example : Whole disk1 ∧ ∃ st, run disk1 clear [.add (path ["p.pak"]) false, .load (path ["a"]) false] = .ok st ∧
    st.arcs.length = 1 := by
  exact ⟨disk1_whole, loaded, by decide +kernel, by decide +kernel⟩

/-! ### C131: searching again -/

/-- C131: the same search, made again, gives the same answer and changes nothing more. -/
theorem search_again_partial (d : Disk) (st st' : State) (p : Path) (loose : Bool) (r : Option (Ref × Path))
    (h : Archive.where d st p loose = .ok (st', r)) : Archive.where d st' p loose = .ok (st', r) := by
  rcases where_cases h with ⟨_, rfl, _⟩ | ⟨a, f, ref, hs, h1, h2⟩
  · exact h
  · have := addArchive_again h1 false (Or.inr rfl)
    unfold Archive.where
    rw [hs]
    simp only [this, Outcome.ok_bind]
    cases ref with
    | none => rw [h2]; rfl
    | some ref => rw [h2]; rfl

/-- C131: without a direct archive path, a search changes nothing. -/
theorem plain_search_pure (d : Disk) (st st' : State) (p : Path) (loose : Bool) (r : Option (Ref × Path))
    (hp : Plain d p) (h : Archive.where d st p loose = .ok (st', r)) : st' = st := by
  rcases where_cases h with ⟨_, rfl, _⟩ | ⟨a, f, ref, hs, _⟩
  · rfl
  · rw [split_plain hp] at hs
    cases hs

/-- C131, the claim: loading one file does not change what a search for another one finds. -/
def LoadsDoNotInterfere : Prop := ∀ (d : Disk) (calls : List Call) (st st' : State) (p q : Path) (loose : Bool)
    (data : Option (List Byte)) (r : Option (Ref × Path)),
  run d clear calls = .ok st → Archive.load d st p loose = .ok (data, st') →
    Plain d q → Archive.where d st q loose = .ok (st, r) → Archive.where d st' q loose = .ok (st', r)

/-- C131, negation: loading `p.pak/a` directly registers `p.pak`, and `a` is from then on found there instead of on
disk. -/
theorem direct_load_interferes : ¬ LoadsDoNotInterfere := by
  intro h
  obtain ⟨q, hq⟩ := disk1_pak
  have hload : ∃ st', Archive.load disk1 clear (path ["p.pak", "a"]) false = .ok (some [1], st') ∧
      Archive.where disk1 st' (path ["a"]) false = .ok (st', some (.arc (path ["p.pak"]), path ["a"])) := by
    refine ⟨loaded, by decide +kernel, by decide +kernel⟩
  obtain ⟨st', hl, hw⟩ := hload
  have := h disk1 [] clear st' (path ["p.pak", "a"]) (path ["a"]) false (some [1]) (some (.absrel, path ["a"]))
    rfl hl disk1_plain (by decide +kernel)
  rw [hw] at this
  simp at this

end Verif.Archive
