import Verif.SurfLights.RadLemmas

/-!
C238: files with lights of textures.
-/

namespace Verif.SurfLights

open Verif.Parser (State parseToken ofString)
open Verif.EntData (Str Dict)
open Spec

variable {F : Type}

/-- **C238**: a line without words, or with only a comment, gives no light. -/
theorem empty_line (env : Numbers F) {line : Str} (h : Line line []) : radLine env line = .ok none := by
  obtain ⟨rest, h1, -⟩ := next h 1 [] false
  simp [radLine, ofString, h1]

/-- **C238**: a line with a texture and three numbers gives one light for that texture, with that colour, and with the brightness
that follows; words after that, and comments, have no effect. -/
theorem light_line (env : Numbers F) {line : Str} {name r g b : Str} {rest : List Str} (h : Line line (name :: r :: g :: b :: rest))
    {x y z : F} (hx : env.stod r = some x) (hy : env.stod g = some y) (hz : env.stod b = some z) :
    ∃ d, radLine env line = .ok (some d) ∧ LightOf env (name :: r :: g :: b :: rest) d := by
  obtain ⟨r1, h1, l1⟩ := next h 1 [] false
  obtain ⟨r2, l2, h2⟩ := number_eq env l1 1 name false
  simp only [List.tail_cons, List.headD_cons, hx] at l2 h2
  obtain ⟨r3, l3, h3⟩ := number_eq env l2 1 r false
  simp only [List.tail_cons, List.headD_cons, hy] at l3 h3
  obtain ⟨r4, l4, h4⟩ := number_eq env l3 1 g false
  simp only [List.tail_cons, List.headD_cons, hz] at l4 h4
  obtain ⟨r5, h5, -⟩ := next l4 1 b false
  refine ⟨_, ?_, name, r, g, b, rest, x, y, z, rfl, hx, hy, hz, fun k => find_three name (env.format x y z) (rest.headD []) k⟩
  simp only [radLine, ofString, h1, Outcome.ok_bind, List.isEmpty_cons, Bool.not_false, Bool.true_eq_false, if_false,
    List.headD_cons, h2, h3, h4, h5]

/-- **C238**: light stops with an error at a line with a texture but without three numbers. -/
theorem bad_line (env : Numbers F) (he : env.stod [] = none) {line : Str} {name : Str} {ws : List Str} (h : Line line (name :: ws))
    (hbad : ws.length < 3 ∨ ∃ i < 3, ∃ w, ws[i]? = some w ∧ env.stod w = none) : radLine env line = .error := by
  obtain ⟨r1, h1, l1⟩ := next h 1 [] false
  obtain ⟨r2, l2, h2⟩ := number_eq env l1 1 name false
  obtain ⟨r3, l3, h3⟩ := number_eq env l2 1 ((name :: ws).tail.headD []) false
  obtain ⟨r4, l4, h4⟩ := number_eq env l3 1 ((name :: ws).tail.tail.headD []) false
  simp only [List.tail_cons] at h2 h3 h4
  simp only [radLine, ofString, h1, Outcome.ok_bind, List.isEmpty_cons, Bool.not_false, Bool.true_eq_false, if_false,
    List.headD_cons, h2]
  cases hx : env.stod (ws.headD []) with
  | none => rfl
  | some x =>
    simp only [Outcome.ok_bind, h3]
    cases hy : env.stod (ws.tail.headD []) with
    | none => rfl
    | some y =>
      simp only [Outcome.ok_bind, h4]
      cases hz : env.stod (ws.tail.tail.headD []) with
      | none => rfl
      | some z =>
        exfalso
        match ws, hbad, hx, hy, hz with
        | [], _, hx, _, _ => simp [he] at hx
        | [_], _, _, hy, _ => simp [he] at hy
        | [_, _], _, _, _, hz => simp [he] at hz
        | a :: b :: c :: rest, hbad, hx, hy, hz =>
          rcases hbad with hbad | ⟨i, hi, w, hw, hn⟩
          · simp at hbad; omega
          · simp only [List.headD_cons, List.tail_cons] at hx hy hz
            match i, hi, hw with
            | 0, _, hw => simp at hw; rw [hw, hn] at hx; simp at hx
            | 1, _, hw => simp at hw; rw [hw, hn] at hy; simp at hy
            | 2, _, hw => simp at hw; rw [hw, hn] at hz; simp at hz

theorem lights_of_lines (env : Numbers F) {ls : List Str} {ds : List Dict} (h : Lights env ls ds) : ∀ acc : List Dict,
    ∃ ds', Lights env ls ds' ∧ radLines env ls acc = .ok (acc ++ ds') := by
  induction h with
  | nil => intro acc; exact ⟨[], .nil, by simp [radLines]⟩
  | @empty l ls ds h1 h2 ih =>
    intro acc
    obtain ⟨ds', h3, h4⟩ := ih acc
    exact ⟨ds', .empty h1 h3, by simp [radLines, empty_line env h1, h4]⟩
  | @light l ls ws d ds h1 h2 h3 ih =>
    intro acc
    obtain ⟨name, r, g, b, rest, x, y, z, rfl, hx, hy, hz, -⟩ := h2
    obtain ⟨d', hd, hl⟩ := light_line env h1 hx hy hz
    obtain ⟨ds', h4, h5⟩ := ih (acc ++ [d'])
    exact ⟨d' :: ds', .light h1 hl h4, by simp [radLines, hd, h5]⟩

/-- **C238**: a file of such lines adds their lights, in their order, to those that are there already. Whether the last line ends
with a newline does not matter. -/
theorem lights_of_file (env : Numbers F) {text : Str} {ds : List Dict} (h : Lights env (linesOf text) ds) (acc : List Dict) :
    IsLines (linesOf text) text ∧
      ∃ ds', Lights env (linesOf text) ds' ∧ radFile env (some text) acc = .ok (true, acc ++ ds') := by
  refine ⟨linesOf_spec text, ?_⟩
  obtain ⟨ds', h1, h2⟩ := lights_of_lines env h acc
  exact ⟨ds', h1, by simp [radFile, h2]⟩

/-- **C238**: a bad line anywhere ends the program. -/
theorem bad_file (env : Numbers F) (he : env.stod [] = none) {pre post : List Str} {ds : List Dict} (hp : Lights env pre ds) {line name : Str}
    {ws : List Str} (h : Line line (name :: ws)) (hbad : ws.length < 3 ∨ ∃ i < 3, ∃ w, ws[i]? = some w ∧ env.stod w = none)
    (acc : List Dict) : radLines env (pre ++ line :: post) acc = .error := by
  induction hp generalizing acc with
  | nil => simp [radLines, bad_line env he h hbad]
  | empty h1 _ ih => simp [radLines, empty_line env h1, ih]
  | light h1 h2 _ ih =>
    obtain ⟨name, r, g, b, rest, x, y, z, rfl, hx, hy, hz, -⟩ := h2
    obtain ⟨d', hd, -⟩ := light_line env h1 hx hy hz
    simp [radLines, hd, ih]

/-- **C238**: files that are not there are no error; the lights of `lights.rad` come first, then those of the map and those of
`-radlights`; a map with the name `lights` has those of its file once. -/
theorem files_in_order (env : Numbers F) (files : Str → Option Str) (generic ofMap : Str) (option : Option Str) (g m o : List Dict)
    (hg : ∀ acc, ∃ f, radFile env (files generic) acc = .ok (f, acc ++ g))
    (hm : ∀ acc, ∃ f, radFile env (files ofMap) acc = .ok (f, acc ++ m))
    (ho : ∀ p, option = some p → ∀ acc, ∃ f, radFile env (files p) acc = .ok (f, acc ++ o)) :
    radFiles env files generic ofMap option =
      .ok ((if ofMap = generic then [] else g) ++ m ++ if option = none then [] else o) ∧
      ∀ acc, radFile env none acc = .ok (false, acc) := by
  refine ⟨?_, fun acc => rfl⟩
  unfold radFiles
  have tail : ∀ a : List Dict, (radFile env (files ofMap) a >>= fun b =>
      match option with
      | none => Outcome.ok b.2
      | some o => radFile env (files o) b.2 >>= fun c => .ok c.2) = .ok (a ++ m ++ if option = none then [] else o) := by
    intro a
    obtain ⟨f, hf⟩ := hm a
    rw [hf]
    cases option with
    | none => simp
    | some p =>
      obtain ⟨f', hf'⟩ := ho p rfl (a ++ m)
      simp [hf']
  by_cases e : ofMap = generic
  · rw [if_neg (by simpa using e), if_pos e]
    exact tail []
  · rw [if_pos e, if_neg e]
    obtain ⟨f, hf⟩ := hg []
    rw [hf]
    exact tail ([] ++ g)

/-- Digits for the examples. -/
private def toy : Numbers Nat := ⟨fun s => if s = [] then none else some s.length, fun a b c => [a.toUInt8, b.toUInt8, c.toUInt8]⟩

-- `lava 1 12 1 300 x // hot`, an empty line, and a line that is too short.
example : radFile toy (some [108, 97, 32, 49, 32, 49, 50, 9, 49, 32, 51, 48, 32, 120, 32, 47, 47, 32, 104, 10, 13, 10]) [] =
    .ok (true, [[(keySurface, [108, 97]), (keyColor, [1, 2, 1]), (keyLight, [51, 48])]]) := by decide +kernel
example : radFile toy (some [108, 97, 32, 49, 10]) [] = .error := by decide +kernel
example : Line [108, 97, 32, 49] [[108, 97], [49]] := by
  have h2 : Line [32, 49] [[49]] :=
    .word (s := [32]) (w := [49]) (rest := []) (by unfold Space; decide) (by simp [Plain]) (Or.inl rfl) (.blank (by simp [Space]))
  exact .word (s := []) (w := [108, 97]) (rest := [32, 49]) (by simp [Space]) (by simp [Plain])
    (Or.inr ⟨32, [49], rfl, by decide, by decide, by decide⟩) h2

end Verif.SurfLights
