import Verif.TexRemap.Lemmas

/-! Property C244: files that replace textures. -/

namespace Verif.TexRemap

open Verif.Parser (State parseToken ofFile)
open Verif.SurfLights.Spec (Line Space Plain)
open Spec

/-- C244: the files of `-texturedefs`, in the order in which they are read, replace a name by what the last line for it says, and no other name. -/
theorem files_read (env : Numbers) (files : List (Text × List (List Text))) (hf : ∀ f ∈ files, IsFile f.1 f.2 ∧ Valid env f.2) :
    ∃ m, loadFiles env (files.map fun f => some f.1) (fun _ => none) = .ok m ∧
      ∀ k d, m k = some d ↔ LastFor env (files.flatMap fun f => f.2) k d := by
  have key : ∀ (files : List (Text × List (List Text))) (m0 : Table), (∀ f ∈ files, IsFile f.1 f.2 ∧ Valid env f.2) →
      ∃ m, loadFiles env (files.map fun f => some f.1) m0 = .ok m ∧ After env m0 (files.flatMap fun f => f.2) m := by
    intro files
    induction files with
    | nil => intro m0 _; exact ⟨m0, rfl, .nil⟩
    | cons f fs ih =>
      intro m0 h
      obtain ⟨h1, h2⟩ := h f (List.mem_cons_self ..)
      obtain ⟨m1, a1, a2⟩ := load_lines h1 h2 (f.1.length + 1) 1 [] false m0 (by have := file_length h1; omega)
      obtain ⟨m2, b1, b2⟩ := ih m1 fun g hg => h g (List.mem_cons_of_mem _ hg)
      refine ⟨m2, ?_, by rw [List.flatMap_cons]; exact after_append a2 b2⟩
      simp only [List.map_cons, loadFiles, loadFile, ofFile, a1, Outcome.ok_bind, b1]
  obtain ⟨m, h1, h2⟩ := key files (fun _ => none) hf
  refine ⟨m, h1, fun k d => ?_⟩
  rw [after_spec h2]
  simp

/-- C244: a face with a replaced name gets the new name, and the contents, flags and value if the line gives them; otherwise, and for
other names, what the map says stays. -/
theorem face_remapped (m : Table) (name : Text) (info : Option Info) :
    (∀ d, m name = some d → (remap m name info).1 = d.to ∧ (∀ i, d.info = some i → (remap m name info).2 = some i) ∧
      (d.info = none → (remap m name info).2 = info)) ∧
    (m name = none → remap m name info = (name, info)) := by
  refine ⟨fun d h => ?_, fun h => by simp [remap, h]⟩
  refine ⟨by simp [remap, h], fun i hi => by simp [remap, h, hi], fun hn => by simp [remap, h, hn]⟩

/-- C244: a file that is not there is an error. -/
theorem no_file (env : Numbers) (m : Table) : loadFile env none m = .error := rfl

theorem plain_letter (b : UInt8) (h : 96 < b ∧ b < 123) : Plain [b] := by
  have h1 : 32 < b := UInt8.lt_trans (by decide) h.1
  have h2 : b < 128 := UInt8.lt_trans h.2 (by decide)
  refine ⟨by simp, by simp [h1, h2], ?_, ?_, by simp⟩
  · simp only [List.head?_cons, ne_eq, Option.some.injEq]; rintro rfl; exact absurd h.1 (by decide)
  · simp only [List.head?_cons, ne_eq, Option.some.injEq]; rintro rfl; exact absurd h.1 (by decide)

/-- The first word of a file that begins with `a` and a space. -/
theorem first_word (r : Text) : parseToken 0 {} false (ofFile (97 :: 32 :: r)) = .ok (true, ⟨32 :: r, 1, [97], false⟩) := by
  simp only [parseToken, ofFile, Bool.false_eq_true, if_false]
  exact scan_word rfl [97] (plain_letter 97 (by decide)) 32 (by decide) r 1

/-- C244 fails for a file whose last line does not end with a newline (`a b`): the parser reads behind the end of the file. -/
theorem last_line_open (env : Numbers) (m : Table) : loadFile env (some [97, 32, 98]) m = .ub := by
  have h : parseToken 0 { sameline := true } false ⟨[32, 98], 1, [97], false⟩ = .ub := by
    simp only [parseToken, Bool.false_eq_true, if_false]
    rw [EntData.scan_eq]
    simp [Parser.skipSpace, Parser.atEnd, Parser.isBlank, EntData.afterSkip, Parser.isComment, Parser.SLASH, Parser.SEMI, Parser.copyToken,
      Parser.QUOTE, Parser.unquoted, Parser.NL]
  simp only [loadFile, loadLoop, first_word, Outcome.ok_bind]
  simp [h, Parser.atEnd]

/-- C244 fails for an empty name in quotes (`a ""`): the last character of the empty name is read. -/
theorem empty_name (env : Numbers) (m : Table) : loadFile env (some [97, 32, 34, 34, 10]) m = .ub := by
  have h : parseToken 0 { sameline := true } false ⟨[32, 34, 34, 10], 1, [97], false⟩ = .ok (true, ⟨[10], 1, [], true⟩) := by
    simp only [parseToken, Bool.false_eq_true, if_false]
    rw [EntData.scan_eq]
    simp [Parser.skipSpace, Parser.atEnd, Parser.isBlank, EntData.afterSkip, Parser.isComment, Parser.SLASH, Parser.SEMI, Parser.copyToken,
      Parser.QUOTE, Parser.quoted, Parser.NL]
  simp only [loadFile, loadLoop, first_word, Outcome.ok_bind]
  simp [h, Parser.atEnd, cutBlanks]

/-- The file `a b` with a newline, for any letter `b`. -/
theorem small_file (env : Numbers) (b : UInt8) (h : 96 < b ∧ b < 123) :
    IsFile [97, 32, b, 10] [[[97], [b]]] ∧ Valid env [[[97], [b]]] := by
  refine ⟨.line (l := [97, 32, b]) (rest := []) ?_ .nil, ?_⟩
  · refine .word (s := []) (w := [97]) (rest := [32, b]) (by simp [Space]) (plain_letter 97 (by decide)) (.inr ⟨32, [b], rfl, by decide⟩) ?_
    exact .word (s := [32]) (w := [b]) (rest := []) (by simp [Space]) (plain_letter b h) (.inl rfl) (.blank (by simp [Space]))
  · intro ws hw
    simp only [List.mem_singleton] at hw
    subst hw
    exact .inr ⟨[97], ⟨[b], none⟩, .inl ⟨rfl, rfl⟩⟩

/-- C244: the order in which the files are read does not matter if no two of them have a line for the same name. -/
theorem order_free (env : Numbers) (files files' : List (Text × List (List Text))) (hf : ∀ f ∈ files, IsFile f.1 f.2 ∧ Valid env f.2)
    (hp : files.Perm files') (hd : files.Pairwise fun f g => ∀ x ∈ f.2, ∀ y ∈ g.2, ∀ k, ¬ (x.head? = some k ∧ y.head? = some k)) :
    loadFiles env (files.map fun f => some f.1) (fun _ => none) = loadFiles env (files'.map fun f => some f.1) (fun _ => none) := by
  obtain ⟨m, h1, h2⟩ := files_read env files hf
  obtain ⟨m', h1', h2'⟩ := files_read env files' fun f h => hf f (hp.mem_iff.mpr h)
  have hd' : files'.Pairwise fun f g => ∀ x ∈ f.2, ∀ y ∈ g.2, ∀ k, ¬ (x.head? = some k ∧ y.head? = some k) :=
    (hp.pairwise_iff fun h x hx y hy k hk => h y hy x hx k hk.symm).mp hd
  rw [h1, h1']
  congr 1
  funext k
  apply Option.ext
  intro d
  rw [h2, h2', lastFor_flatten env _ hd, lastFor_flatten env _ hd']
  simp only [hp.mem_iff]

/-- C244 says nothing of the order of the command line, for the names of the files are an unordered set: if two files have a line for the
same name, the order in which they are read matters. -/
theorem order_matters (env : Numbers) : ∃ f g : Text × List (List Text), (IsFile f.1 f.2 ∧ Valid env f.2) ∧ (IsFile g.1 g.2 ∧ Valid env g.2) ∧
    loadFiles env [some f.1, some g.1] (fun _ => none) ≠ loadFiles env [some g.1, some f.1] (fun _ => none) := by
  have hf := small_file env 98 (by decide)
  have hg := small_file env 99 (by decide)
  refine ⟨(_, _), (_, _), hf, hg, fun h => ?_⟩
  obtain ⟨m, h1, h2⟩ := files_read env [(_, _), (_, _)] (List.forall_mem_cons.mpr ⟨hf, List.forall_mem_cons.mpr ⟨hg, by simp⟩⟩)
  obtain ⟨m', h1', h2'⟩ := files_read env [(_, _), (_, _)] (List.forall_mem_cons.mpr ⟨hg, List.forall_mem_cons.mpr ⟨hf, by simp⟩⟩)
  simp only [List.map_cons, List.map_nil] at h1 h1' h
  rw [h1, h1', Outcome.ok.injEq] at h
  subst h
  have a := (h2 [97] ⟨[99], none⟩).mpr ⟨[[[97], [98]]], [[97], [99]], [], rfl, .inl ⟨rfl, rfl⟩, by simp⟩
  have b := (h2' [97] ⟨[98], none⟩).mpr ⟨[[[97], [99]]], [[97], [98]], [], rfl, .inl ⟨rfl, rfl⟩, by simp⟩
  rw [a] at b
  simp at b

/-- The file `a b` meets the hypothesis of `files_read`. -/
example (env : Numbers) : IsFile [97, 32, 98, 10] [[[97], [98]]] ∧ Valid env [[[97], [98]]] := small_file env 98 (by decide)

end Verif.TexRemap
