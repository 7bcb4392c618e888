import Verif.Styles.ArghradLemmas

/-! C240: which entities become lights, and the keys of Arghrad. -/

namespace Verif.Styles

open Verif.EntData (Str Dict get set find rename)

variable {F : Type} [Field F] [LinearOrder F]

/-- **C240**: all keys of a light after `-arghradcompat`. -/
theorem arghrad_keys (env : Texts F) (d : Dict) (h : KeysOnce d) (k : Str) :
    find (arghrad env d) k = Converted env (find d) k := by
  obtain ⟨o1, o2, o3, o4, o5⟩ := h
  obtain ⟨n1, n2, n3, n4, n5, n6, n7, n8, n9, n10, n11, n12, n13, n14, n15, n16, n17, n18, n19, n20, n21, n22⟩ := lit_ne
  obtain ⟨m1, m2, m3, m4, m5, m6, m7, m8, m9, m10⟩ := lit_ne'
  have e1 := fun k => find_rename_once d _ _ k n1 o1
  have p2 := once_rename d (lit "_falloff") (lit "delay") _ n2 o2
  have e2 := fun k => find_rename_once _ _ _ k n3 p2
  have p3 := once_rename _ (lit "_distance") (lit "_falloff") _ n5 (once_rename d (lit "_falloff") (lit "delay") _ n4 o3)
  have e3 := fun k => find_rename_once _ _ _ k n6 p3
  have p4 := once_rename _ (lit "_fade") (lit "wait") _ n9 (once_rename _ (lit "_distance") (lit "_falloff") _ n8
    (once_rename d (lit "_falloff") (lit "delay") _ n7 o4))
  have e4 := fun k => find_rename_once _ _ _ k n10 p4
  have p5 := once_rename _ (lit "_angfade") (lit "_anglescale") _ n14 (once_rename _ (lit "_fade") (lit "wait") _ n13
    (once_rename _ (lit "_distance") (lit "_falloff") _ n12 (once_rename d (lit "_falloff") (lit "delay") _ n11 o5)))
  have e5 := fun k => find_rename_once _ _ _ k n14 p5
  unfold arghrad
  simp only [find_halveScale, e5, e4, e3, e2, e1]
  clear e1 e2 e3 e4 e5 p2 p3 p4 p5
  unfold Converted
  by_cases k1 : k = lit "delay"
  · subst k1
    simp [n1.symm, n2.symm, n4.symm, n7.symm, n11.symm, n20, n21]
  by_cases k2 : k = lit "_falloff"
  · subst k2
    simp [n1, n2, n15, n16, m1, m2, m3, m4, m1.symm]
  by_cases k3 : k = lit "wait"
  · subst k3
    simp [n6.symm, n9.symm, n13.symm, n15.symm, n17.symm, n20.symm, n22, n4, n5, m2.symm, m5.symm]
  by_cases k4 : k = lit "_anglescale"
  · subst k4
    simp [n10.symm, n14.symm, n16.symm, n18.symm, n19.symm, n21.symm, n22.symm, n7, n8, n9, n11, n12, n13, n14, m3.symm,
      m4.symm, m6.symm, m7.symm, m8.symm, m9.symm, m10.symm, Option.or_assoc]
  by_cases k5 : k = lit "_distance"
  · subst k5
    simp [n2, n3, n17, n18, m5, m6, m7]
  by_cases k6 : k = lit "_fade"
  · subst k6
    simp [n4, n5, n6, n19, m8, m9]
  by_cases k7 : k = lit "_angfade"
  · subst k7
    simp [n7, n8, n9, n10, m10]
  by_cases k8 : k = lit "_angwait"
  · subst k8
    simp [n11, n12, n13, n14]
  simp [k1, k2, k3, k4, k5, k6, k7, k8]

theorem arghrad_once (env : Texts F) (d : Dict) (h : KeysOnce d) : KeysOnce (arghrad env d) := by
  obtain ⟨o1, o2, o3, o4, o5⟩ := h
  obtain ⟨n1, n2, n3, n4, n5, n6, n7, n8, n9, n10, n11, n12, n13, n14, n15, n16, n17, n18, n19, n20, n21, n22⟩ := lit_ne
  unfold arghrad
  refine ⟨?_, ?_, ?_, ?_, ?_⟩ <;> apply once_halveScale
  · refine once_rename _ _ _ _ n16 (once_rename _ _ _ _ n16 (once_rename _ _ _ _ n15 (once_of_none _ _ _ ?_)))
    rw [find_rename_once d _ _ _ n1 o1]
    simp
  · exact once_rename _ _ _ _ n18 (once_rename _ _ _ _ n18 (once_rename _ _ _ _ n17 (once_rename _ _ _ _ n3
      (once_rename _ _ _ _ n2 o2))))
  · exact once_rename _ _ _ _ n19 (once_rename _ _ _ _ n19 (once_rename _ _ _ _ n6 (once_rename _ _ _ _ n5
      (once_rename _ _ _ _ n4 o3))))
  · exact once_rename _ _ _ _ n10 (once_rename _ _ _ _ n10 (once_rename _ _ _ _ n9 (once_rename _ _ _ _ n8
      (once_rename _ _ _ _ n7 o4))))
  · exact once_rename _ _ _ _ n14 (once_rename _ _ _ _ n14 (once_rename _ _ _ _ n13 (once_rename _ _ _ _ n12
      (once_rename _ _ _ _ n11 o5))))

/-- **C240**: lighting a file again that was written with the option takes the key `_distance` of the map, now `_falloff`, for
`delay`, and halves the scale again. -/
theorem arghrad_again (env : Texts F) (d : Dict) (h : KeysOnce d) :
    find (arghrad env (arghrad env d)) (lit "delay") =
      ((find d (lit "delay")).or (find d (lit "_falloff"))).or (find d (lit "_distance")) ∧
    find (arghrad env (arghrad env d)) (lit "_falloff") = none ∧
    find (arghrad env (arghrad env d)) (lit "_anglescale") =
      ((find d (lit "_anglescale")).or ((find d (lit "_angfade")).or (find d (lit "_angwait")))).map
        fun v => Halved env (Halved env v) := by
  have h' := arghrad_once env d h
  obtain ⟨n1, n2, n3, n4, n5, n6, n7, n8, n9, n10, n11, n12, n13, n14, n15, n16, n17, n18, n19, n20, n21, n22⟩ := lit_ne
  obtain ⟨m1, m2, m3, m4, m5, m6, m7, m8, m9, m10⟩ := lit_ne'
  simp only [arghrad_keys env _ h']
  have e : find (arghrad env d) = Converted env (find d) := funext (arghrad_keys env d h)
  rw [e]
  refine ⟨?_, ?_, ?_⟩
  · simp [Converted, n1]
  · simp [Converted, n1, n2, n3, n17, n18]
  · simp [Converted, n16.symm, n21.symm, n22.symm, n7, n8, n9, n10, n11, n12, n13, n14, m3, m6, Option.map_map, Function.comp_def]

theorem isLight_class (d : Dict) : isLight d = true ↔ ∃ c rest, find d (lit "classname") = some c ∧ c = lit "light" ++ rest := by
  unfold isLight EntData.get
  rw [List.isPrefixOf_iff_prefix]
  cases find d (lit "classname") with
  | none =>
    constructor
    · intro h
      exact absurd (List.prefix_nil.mp h) (by decide +kernel)
    · rintro ⟨c, rest, h, _⟩
      cases h
  | some c =>
    constructor
    · rintro ⟨rest, h⟩
      exact ⟨c, rest, rfl, h.symm⟩
    · rintro ⟨c', rest, h, h'⟩
      cases h
      exact ⟨rest, h'.symm⟩

theorem value_given (d : Dict) (k : Str) : (get d k).isEmpty = false ↔ ∃ s, find d k = some s ∧ s ≠ [] := by
  unfold EntData.get
  cases find d k with
  | none => simp
  | some v => cases v <;> simp

theorem wanted_iff (o : LoadOptions) (d : Dict) : Wanted o d ↔ isLight d = true ∧ leftOut o d = false := by
  unfold Wanted leftOut
  rw [← isLight_class, ← value_given, ← value_given]
  cases o.nolighting <;> cases (get d (lit "style")).isEmpty <;> cases (get d (lit "switchshadstyle")).isEmpty <;> simp

theorem converted_other (env : Texts F) (old : Str → Option Str) :
    Converted env old (lit "classname") = old (lit "classname") ∧ Converted env old (lit "style") = old (lit "style") ∧
      Converted env old (lit "switchshadstyle") = old (lit "switchshadstyle") := by
  have h : (∀ k ∈ [lit "classname", lit "style", lit "switchshadstyle"], k ≠ lit "delay" ∧ k ≠ lit "_falloff" ∧
      k ≠ lit "wait" ∧ k ≠ lit "_anglescale" ∧ k ≠ lit "_distance" ∧ k ≠ lit "_fade" ∧ k ≠ lit "_angfade" ∧
      k ≠ lit "_angwait") := by decide +kernel
  have h' : ∀ k ∈ [lit "classname", lit "style", lit "switchshadstyle"], Converted env old k = old k := by
    intro k hk
    obtain ⟨h1, h2, h3, h4, h5, h6, h7, h8⟩ := h k hk
    simp [Converted, h1, h2, h3, h4, h5, h6, h7, h8]
  exact ⟨h' _ (by simp), h' _ (by simp), h' _ (by simp)⟩

open Classical in
/-- **C240**: the wanted entities become lights, in their order; all entities keep their places, and those that are no lights
stay as they are. -/
theorem lights_loaded (o : LoadOptions) (env : Texts F) (ds : List Dict) (h : ∀ d ∈ ds, KeysOnce d) (hn : o.nolights = false) :
    secondPass o env ds = (ds.map fun d => if isLight d = true ∧ o.arghrad = true then arghrad env d else d,
      (ds.filter fun d => decide (Wanted o d)).map fun d => if o.arghrad = true then arghrad env d else d) := by
  unfold secondPass
  rw [if_neg (by simp [hn])]
  induction ds with
  | nil => rfl
  | cons d ds ih =>
    have ih := ih fun x hx => h x (List.mem_cons_of_mem _ hx)
    have hd := h d (by simp)
    have hl : leftOut o (if o.arghrad = true then arghrad env d else d) = leftOut o d := by
      split
      · unfold leftOut EntData.get
        rw [arghrad_keys env d hd, arghrad_keys env d hd, (converted_other env _).2.1, (converted_other env _).2.2]
      · rfl
    unfold loadLoop
    simp only [hl, ih]
    by_cases h1 : isLight d = true
    · rw [if_pos h1]
      by_cases h2 : leftOut o d = true
      · rw [if_pos h2]
        have hw : ¬ Wanted o d := by rw [wanted_iff]; simp [h2]
        simp [h1, hw]
      · rw [if_neg h2]
        have hw : Wanted o d := by rw [wanted_iff]; exact ⟨h1, by simpa using h2⟩
        simp [h1, hw]
    · rw [if_neg h1]
      have hw : ¬ Wanted o d := by rw [wanted_iff]; simp [h1]
      simp [h1, hw]

/-- **C240**: with `-nolights` there are none, and no entity changes. -/
theorem no_lights (o : LoadOptions) (env : Texts F) (ds : List Dict) (hn : o.nolights = true) : secondPass o env ds = (ds, []) := by
  simp [secondPass, hn]

/-- A light with a distance. -/
def exampleLight : Dict := [(lit "classname", lit "light"), (lit "_distance", lit "200"), (lit "_angwait", lit "2")]

example : KeysOnce exampleLight := by
  unfold KeysOnce Once
  decide +kernel

/-- **C240**: the light has a `_falloff` of 200 after the first time, and a `delay` of 200 after the second one. -/
theorem arghrad_again_differs (env : Texts F) :
    find (arghrad env exampleLight) (lit "_falloff") = some (lit "200") ∧
    find (arghrad env exampleLight) (lit "delay") = none ∧
    find (arghrad env (arghrad env exampleLight)) (lit "_falloff") = none ∧
    find (arghrad env (arghrad env exampleLight)) (lit "delay") = some (lit "200") := by
  have h : KeysOnce exampleLight := by
    unfold KeysOnce Once
    decide +kernel
  have f1 : find exampleLight (lit "_distance") = some (lit "200") ∧ find exampleLight (lit "delay") = none ∧
      find exampleLight (lit "_falloff") = none := by decide +kernel
  obtain ⟨n1, _⟩ := lit_ne
  obtain ⟨a1, a2, _⟩ := arghrad_again env exampleLight h
  rw [arghrad_keys env _ h, arghrad_keys env _ h, a1, a2, f1.1, f1.2.1, f1.2.2]
  refine ⟨?_, ?_, rfl, rfl⟩
  · simp [Converted, n1, f1]
  · simp [Converted, f1]

end Verif.Styles
