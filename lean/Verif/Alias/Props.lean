import Verif.Alias.Lemmas

/-! Property C245: aliases of classnames. -/

namespace Verif.Alias

open Verif.EntData (Str Dict)
open Verif.Parser (ofFile)
open Spec

/-- C245: of the aliases in the files of `-aliasdef`, in the order in which they are read, the last one for a classname is kept. -/
theorem files_read (files : List (Str × List (Str × Dict))) (hv : ∀ f ∈ files, IsFile f.1 f.2) :
    ∃ m, loadFiles (files.map fun f => some f.1) (fun _ => none) = .ok m ∧
      ∀ name d, m name = some d ↔ LastFor (files.map Prod.snd).flatten name d := by
  have key : ∀ (files : List (Str × List (Str × Dict))) (m : Table), (∀ f ∈ files, IsFile f.1 f.2) →
      loadFiles (files.map fun f => some f.1) m = .ok (after m (files.map Prod.snd).flatten) := by
    intro files
    induction files with
    | nil => intro m _; rfl
    | cons f fs ih =>
      intro m h
      have hf := h f (List.mem_cons_self ..)
      have hl := load_defs hf (f.1.length + 1) 1 [] false m (by have := length_file hf; omega)
      simp only [List.map_cons, loadFiles, loadFile, ofFile, hl, Outcome.ok_bind]
      rw [ih _ fun g hg => h g (List.mem_cons_of_mem _ hg), List.flatten_cons]
      simp [after, List.foldl_append]
  refine ⟨_, key files _ hv, fun name d => ?_⟩
  rw [after_spec]
  simp

/-- C245: an entity whose classname has an alias gets the classname of the alias, if that gives one, and the values of all keys that the
alias gives and the entity does not; its own values stay. Entities without an alias stay as they are. -/
theorem alias_replaced (m : Table) (e : Dict) :
    (m (EntData.get e keyClass) = none → replaceAlias m e = e) ∧
    ∀ a, m (EntData.get e keyClass) = some a → (a.map Prod.fst).Nodup →
      EntData.find (replaceAlias m e) keyClass = (EntData.find a keyClass).or (EntData.find e keyClass) ∧
      ∀ k, k ≠ keyClass → EntData.find (replaceAlias m e) k = (EntData.find e k).or (EntData.find a k) := by
  refine ⟨fun h => by simp [replaceAlias, h], fun a h hn => ?_⟩
  simp only [replaceAlias, h]
  refine ⟨?_, fun k hk => ?_⟩
  · rw [addPairs_find a hn, if_pos rfl]
  · rw [addPairs_find a hn, if_neg hk]

/-- C245: a file that is not there is an error. -/
theorem no_file (m : Table) : loadFile none m = .error := rfl

/-- C245: a classname without an entity ends the program, in each round of the loop: the word behind it is not `{`, or there is none. -/
theorem no_entity {g t name g' t' : Str} (hg : Gap g) (hw : Word t name (g' ++ t')) (hg' : Gap g')
    (hb : (∃ w t'', Word t' w t'' ∧ w ≠ [123]) ∨ t' = [] ∧ g' ≠ []) (n l : Nat) (tok : Str) (q : Bool) (m : Table) :
    loadLoop (n + 1) ⟨g ++ t, l, tok, q⟩ m = .error := by
  obtain ⟨l1, q1, e1⟩ := gap_word hg hw l
  have e1 : Parser.parseToken 0 {} false ⟨g ++ t, l, tok, q⟩ = .ok (true, ⟨g' ++ t', l1, name, q1⟩) := e1
  rcases hb with ⟨w, t'', h1, h2⟩ | ⟨rfl, h2⟩
  · obtain ⟨l2, q2, e2⟩ := gap_word hg' h1 l1
    have ha : Parser.atEnd 0 (g' ++ t') = false := by
      obtain ⟨b, r, rfl⟩ := word_cons h1
      simp [Parser.atEnd]
    rw [loadLoop, e1]
    simp [ha, Parser.parseToken, e2, h2]
  · obtain ⟨k, hk⟩ := scan_gap hg' [] l1
    have e : Parser.scan 0 {} [] k = .ok (false, ⟨[], k, [], false⟩) := by
      rw [EntData.scan_eq]
      simp [Parser.skipSpace, EntData.afterSkip]
    rw [e, List.append_nil] at hk
    rw [loadLoop, e1]
    simp [Parser.atEnd, Parser.parseToken, hk, h2]

/-- C245: the order in which the files are read does not matter if no two of them have an alias for the same classname. -/
theorem order_free (files files' : List (Str × List (Str × Dict))) (hv : ∀ f ∈ files, IsFile f.1 f.2) (hp : files.Perm files')
    (hd : files.Pairwise fun f g => ∀ x ∈ f.2, ∀ y ∈ g.2, x.1 ≠ y.1) :
    loadFiles (files.map fun f => some f.1) (fun _ => none) = loadFiles (files'.map fun f => some f.1) (fun _ => none) := by
  obtain ⟨m, h1, h2⟩ := files_read files hv
  obtain ⟨m', h1', h2'⟩ := files_read files' fun f hf => hv f (hp.mem_iff.mpr hf)
  have hd' : files'.Pairwise fun f g => ∀ x ∈ f.2, ∀ y ∈ g.2, x.1 ≠ y.1 :=
    (hp.pairwise_iff fun h x hx y hy => Ne.symm (h y hy x hx)).mp hd
  rw [h1, h1']
  congr 1
  funext k
  apply Option.ext
  intro d
  rw [h2, h2', lastFor_flatten _ (List.pairwise_map.mpr hd), lastFor_flatten _ (List.pairwise_map.mpr hd')]
  simp only [List.mem_map, hp.mem_iff]

/-- The file `a // c`, `{`, `"b" "v"`, `}`, in four lines. -/
def small (v : UInt8) : Str := [97, 32, 47, 47, 32, 99, 10, 123, 10, 34, 98, 34, 32, 34, v, 34, 10, 125, 10]

/-- It has the alias `a` with the key `b`. -/
theorem small_file (v : UInt8) (h : v ≠ 0 ∧ v ≠ 34 ∧ v ≠ 92 ∧ v ≠ 125) : IsFile (small v) [([97], [([98], [v])])] := by
  have w1 : ∀ b : UInt8, b = 97 ∨ b = 123 ∨ b = 125 → SurfLights.Spec.Plain [b] := by
    rintro b (rfl | rfl | rfl) <;> exact ⟨by simp, by simp, by simp, by simp, by simp⟩
  have g1 : Gap [10] := .blank (.inl (by decide)) (by decide) .nil
  have g2 : Gap [32] := .blank (.inl (by decide)) (by decide) .nil
  have g3 : Gap [32, 47, 47, 32, 99, 10] :=
    .blank (.inl (by decide)) (by decide) (.comment (c := [47, 47, 32, 99]) ⟨[32, 99], .inl rfl⟩ (by decide) (by decide) .nil)
  have a : Word [125, 10] [125] [10] := .plain (w := [125]) (w1 _ (by simp)) ⟨10, [], rfl, .inl (by decide)⟩
  have b : Pairs [10, 125, 10] [] [10] := .close g1 a
  have c : Word [34, v, 34, 10, 125, 10] [v] [10, 125, 10] := .quoted (w := [v]) (.plain h.1 h.2.1 h.2.2.1 .nil)
  have d : Word [34, 98, 34, 32, 34, v, 34, 10, 125, 10] [98] [32, 34, v, 34, 10, 125, 10] :=
    .quoted (w := [98]) (.plain (by decide) (by decide) (by decide) .nil)
  have e : Pairs [10, 34, 98, 34, 32, 34, v, 34, 10, 125, 10] [([98], [v])] [10] :=
    .pair g1 (g' := [32]) d g2 c ⟨.plain (by decide) (by decide) (by decide) .nil, by simp, ⟨98, rfl, by decide, by decide, by decide⟩,
      ⟨98, rfl, by decide, by decide, by decide⟩⟩ (by simpa using h.2.2.2) b
  have f : Word (123 :: [10, 34, 98, 34, 32, 34, v, 34, 10, 125, 10]) [123] [10, 34, 98, 34, 32, 34, v, 34, 10, 125, 10] :=
    .plain (w := [123]) (w1 _ (by simp)) ⟨10, _, rfl, .inl (by decide)⟩
  have n : Word (small v) [97] ([32, 47, 47, 32, 99, 10] ++ (123 :: [10, 34, 98, 34, 32, 34, v, 34, 10, 125, 10])) :=
    .plain (w := [97]) (w1 _ (by simp)) ⟨32, _, rfl, .inl (by decide)⟩
  exact .entry (g := []) .nil n g3 f e (by simp) (.nil g1)

/-- C245 says nothing of the order of the command line, for the names of the files are an unordered set: if two files have an alias for
the same classname, the order in which they are read matters. -/
theorem order_matters : ∃ f g : Str × List (Str × Dict), IsFile f.1 f.2 ∧ IsFile g.1 g.2 ∧
    loadFiles [some f.1, some g.1] (fun _ => none) ≠ loadFiles [some g.1, some f.1] (fun _ => none) := by
  have hf := small_file 99 (by decide)
  have hg := small_file 100 (by decide)
  refine ⟨(_, _), (_, _), hf, hg, fun h => ?_⟩
  obtain ⟨m, h1, h2⟩ := files_read [(_, _), (_, _)] (List.forall_mem_cons.mpr ⟨hf, List.forall_mem_cons.mpr ⟨hg, by simp⟩⟩)
  obtain ⟨m', h1', h2'⟩ := files_read [(_, _), (_, _)] (List.forall_mem_cons.mpr ⟨hg, List.forall_mem_cons.mpr ⟨hf, by simp⟩⟩)
  simp only [List.map_cons, List.map_nil] at h1 h1' h
  rw [h1, h1', Outcome.ok.injEq] at h
  subst h
  have a := (h2 [97] [([98], [100])]).mpr ⟨[([97], [([98], [99])])], [], rfl, by simp⟩
  have b := (h2' [97] [([98], [99])]).mpr ⟨[([97], [([98], [100])])], [], rfl, by simp⟩
  rw [a] at b
  exact absurd b (by decide)

/-- C245 fails for a file whose last byte is the `}` of an alias (`a`, `{`, `}`): the parser reads behind the end of the file. -/
theorem last_brace_open (m : Table) : loadFile (some [97, 10, 123, 10, 125]) m = .ub := by
  have w1 : ∀ b : UInt8, b = 97 ∨ b = 123 → SurfLights.Spec.Plain [b] := by
    rintro b (rfl | rfl) <;> exact ⟨by simp, by simp, by simp, by simp, by simp⟩
  have g1 : Gap [10] := .blank (.inl (by decide)) (by decide) .nil
  obtain ⟨q1, e1⟩ := scan_of_word (.plain (w := [97]) (rest := [10, 123, 10, 125]) (w1 _ (by simp)) ⟨10, _, rfl, .inl (by decide)⟩) 1
  obtain ⟨l2, q2, e2⟩ := gap_word g1 (.plain (w := [123]) (rest := [10, 125]) (w1 _ (by simp)) ⟨10, _, rfl, .inl (by decide)⟩) 1
  have e3 : ∀ l, Parser.scan 0 {} [10, 125] l = .ub := by
    intro l
    rw [EntData.scan_eq]
    simp [Parser.skipSpace, Parser.atEnd, Parser.isBlank, EntData.afterSkip, Parser.isComment, Parser.SLASH, Parser.SEMI, Parser.copyToken,
      Parser.QUOTE, Parser.unquoted, Parser.NL]
  have e4 : ∀ l t q, EntData.parsePairs 0 ⟨[10, 125], l, t, q⟩ [] = .ub := by
    intro l t q
    have e : Parser.parseToken 0 {} false ⟨[10, 125], l, t, q⟩ = .ub := e3 l
    rw [EntData.parsePairs]
    split <;> rename_i e' <;> rw [e] at e' <;> simp at e'
  simp only [List.cons_append, List.nil_append] at e1 e2
  simp [loadFile, loadLoop, Parser.parseToken, ofFile, e1, e2, Parser.atEnd, EntData.parseEntity, e4]

/-- The hypotheses of `alias_replaced`, in the case that the documentation shows: the alias of `t` has a classname `m` and a model; the
entity has its own model, which stays, and an origin. The keys are shortened to one letter. -/
example : replaceAlias (fun k => if k = [116] then some [(keyClass, [109]), ([112], [113]), ([114], [115])] else none)
      [(keyClass, [116]), ([112], [120]), ([111], [48])] =
    [(keyClass, [109]), ([112], [120]), ([111], [48]), ([114], [115])] := by decide +kernel

/-- The hypotheses of `files_read` and `order_free`: a file with an alias and one with an empty line. -/
example : let files : List (Str × List (Str × Dict)) := [(small 99, [([97], [([98], [99])])]), ([10], [])]
    (∀ f ∈ files, IsFile f.1 f.2) ∧ files.Pairwise fun f g => ∀ x ∈ f.2, ∀ y ∈ g.2, x.1 ≠ y.1 :=
  ⟨List.forall_mem_cons.mpr ⟨small_file 99 (by decide),
    List.forall_mem_cons.mpr ⟨.nil (.blank (.inl (by decide)) (by decide) .nil), by simp⟩⟩, by simp⟩

end Verif.Alias
