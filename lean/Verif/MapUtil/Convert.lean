import Verif.MapUtil.Props
import Verif.TexDef.Props

/-! `maputil --convert`: C200. -/

namespace Verif.MapUtil

open Verif.EntData (Str Dict)
open Verif.MapText.Spec (Word Numbers)
open Geom TexDef TexDef.Spec
open Spec

/-! ### What conversion leaves -/

section
variable {N : Type}

theorem mapAll_ok {α β : Type} (f : α → Outcome β) {γ : Type} (g : α → γ) (g' : β → γ) (hf : ∀ a b, f a = .ok b → g' b = g a) :
    ∀ (l : List α) (l' : List β), mapAll f l = .ok l' → l'.map g' = l.map g := by
  intro l
  induction l with
  | nil => intro l' h; cases h; rfl
  | cons a l ih =>
    intro l' h
    simp only [mapAll] at h
    obtain ⟨b, hb, h⟩ := Outcome.bind_eq_ok.1 h
    obtain ⟨bs, hbs, h⟩ := Outcome.bind_eq_ok.1 h
    cases h
    simp [hf a b hb, ih _ hbs]

theorem mapAll_mem {α β : Type} (f : α → Outcome β) : ∀ (l : List α) (l' : List β), mapAll f l = .ok l' → ∀ b ∈ l', ∃ a ∈ l, f a = .ok b := by
  intro l
  induction l with
  | nil => intro l' h; cases h; simp
  | cons a l ih =>
    intro l' h
    simp only [mapAll] at h
    obtain ⟨b, hb, h⟩ := Outcome.bind_eq_ok.1 h
    obtain ⟨bs, hbs, h⟩ := Outcome.bind_eq_ok.1 h
    cases h
    intro c hc
    rcases List.mem_cons.1 hc with rfl | hc
    · exact ⟨a, by simp, hb⟩
    · obtain ⟨x, hx, hy⟩ := ih _ hbs c hc
      exact ⟨x, by simp [hx], hy⟩

theorem mapAll_mem' {α β : Type} (f : α → Outcome β) : ∀ (l : List α) (l' : List β), mapAll f l = .ok l' → ∀ a ∈ l, ∃ b ∈ l', f a = .ok b := by
  intro l
  induction l with
  | nil => intro l' h; simp
  | cons a l ih =>
    intro l' h
    simp only [mapAll] at h
    obtain ⟨b, hb, h⟩ := Outcome.bind_eq_ok.1 h
    obtain ⟨bs, hbs, h⟩ := Outcome.bind_eq_ok.1 h
    cases h
    intro c hc
    rcases List.mem_cons.1 hc with rfl | hc
    · exact ⟨b, by simp, hb⟩
    · obtain ⟨x, hx, hy⟩ := ih _ hbs c hc
      exact ⟨x, by simp [hx], hy⟩

/-- **C200**: conversion changes texture definitions only: keys, values, brushes, points, textures and surface info stay. -/
theorem convert_keeps (conv : Face N → Outcome (Def N)) (st : Style) (es es' : List (Ent N)) (h : convertMap conv st es = .ok es') :
    outline es' = outline es := by
  refine mapAll_ok _ _ _ ?_ es es' h
  intro e e' he
  simp only [convertEnt] at he
  obtain ⟨bs, hbs, he⟩ := Outcome.bind_eq_ok.1 he
  cases he
  refine Prod.ext rfl (mapAll_ok _ _ _ ?_ e.brushes bs hbs)
  intro b b' hb
  simp only [convertBrush] at hb
  obtain ⟨fs, hfs, hb⟩ := Outcome.bind_eq_ok.1 hb
  cases hb
  refine mapAll_ok _ _ _ ?_ b.faces fs hfs
  intro f f' hf
  simp only [convertFace] at hf
  obtain ⟨d, -, hf⟩ := Outcome.bind_eq_ok.1 hf
  cases hf
  rfl

/-- The faces of the converted map are the converted faces. -/
theorem convert_face (conv : Face N → Outcome (Def N)) (st : Style) (es es' : List (Ent N)) (h : convertMap conv st es = .ok es') :
    (∀ f' ∈ faces es', ∃ f ∈ faces es, ∃ d, conv f = .ok d ∧ f' = { f with tdef := d }) ∧
    (∀ f ∈ faces es, ∃ d, conv f = .ok d ∧ { f with tdef := d } ∈ faces es') := by
  have inv : ∀ e e', convertEnt conv st e = .ok e' → ∃ bs, mapAll (convertBrush conv st) e.brushes = .ok bs ∧ e'.brushes = bs := by
    intro e e' he
    simp only [convertEnt] at he
    obtain ⟨bs, hbs, he⟩ := Outcome.bind_eq_ok.1 he
    cases he
    exact ⟨bs, hbs, rfl⟩
  have invb : ∀ b b', convertBrush conv st b = .ok b' → mapAll (convertFace conv) b.faces = .ok b'.faces := by
    intro b b' hb
    simp only [convertBrush] at hb
    obtain ⟨fs, hfs, hb⟩ := Outcome.bind_eq_ok.1 hb
    cases hb
    exact hfs
  have invf : ∀ f f', convertFace conv f = .ok f' → ∃ d, conv f = .ok d ∧ f' = { f with tdef := d } := by
    intro f f' hf
    simp only [convertFace] at hf
    obtain ⟨d, hd, hf⟩ := Outcome.bind_eq_ok.1 hf
    cases hf
    exact ⟨d, hd, rfl⟩
  constructor
  · intro f' hf'
    simp only [faces, List.mem_flatMap] at hf' ⊢
    obtain ⟨e', he', b', hb', hf'⟩ := hf'
    obtain ⟨e, he, h1⟩ := mapAll_mem _ _ _ h e' he'
    obtain ⟨bs, hbs, rfl⟩ := inv _ _ h1
    obtain ⟨b, hb, h2⟩ := mapAll_mem _ _ _ hbs b' hb'
    obtain ⟨f, hf, h3⟩ := mapAll_mem _ _ _ (invb _ _ h2) f' hf'
    exact ⟨f, ⟨e, he, b, hb, hf⟩, invf _ _ h3⟩
  · intro f hf
    simp only [faces, List.mem_flatMap] at hf ⊢
    obtain ⟨e, he, b, hb, hf⟩ := hf
    obtain ⟨e', he', h1⟩ := mapAll_mem' _ _ _ h e he
    obtain ⟨bs, hbs, rfl⟩ := inv _ _ h1
    obtain ⟨b', hb', h2⟩ := mapAll_mem' _ _ _ hbs b hb
    obtain ⟨f', hf', h3⟩ := mapAll_mem' _ _ _ (invb _ _ h2) f hf
    obtain ⟨d, hd, rfl⟩ := invf _ _ h3
    exact ⟨d, hd, e', he', b', hb', hf'⟩

/-- **C200**: a map whose faces all have the style, in brushes that say so, is left as it is. -/
theorem convert_map_same (conv : Face N → Outcome (Def N)) (st : Style) (hc : ∀ f, f.tdef.has st = true → conv f = .ok f.tdef) (es : List (Ent N))
    (hf : ∀ f ∈ faces es, f.tdef.has st = true) (hb : ∀ e ∈ es, ∀ b ∈ e.brushes, b.prim = decide (st = .prim)) : convertMap conv st es = .ok es := by
  have all : ∀ {α : Type} (g : α → Outcome α) (l : List α), (∀ a ∈ l, g a = .ok a) → mapAll g l = .ok l := by
    intro α g l
    induction l with
    | nil => intro _; rfl
    | cons a l ih =>
      intro h
      simp only [mapAll, h a (by simp), ih fun b hb => h b (by simp [hb]), Outcome.ok_bind]
  simp only [faces, List.mem_flatMap] at hf
  refine all _ _ fun e he => ?_
  have h1 : mapAll (convertBrush conv st) e.brushes = .ok e.brushes := by
    refine all _ _ fun b hbm => ?_
    have h2 : mapAll (convertFace conv) b.faces = .ok b.faces := by
      refine all _ _ fun f hfm => ?_
      simp only [convertFace, hc f (hf f ⟨e, he, b, hbm, hfm⟩), Outcome.ok_bind]
    have := hb e he b hbm
    simp only [convertBrush, h2, Outcome.ok_bind]
    cases b
    simp_all
  simp only [convertEnt, h1, Outcome.ok_bind]

/-! ### Writing what is undefined -/

theorem wAll_bad {α : Type} (f : α → Outcome Str) (bad : Outcome Str) (hbad : ∀ t, bad ≠ .ok t) :
    ∀ (l : List α), (∀ a ∈ l, (∃ t, f a = .ok t) ∨ f a = bad) → (∃ a ∈ l, f a = bad) → wAll f l = bad := by
  intro l
  induction l with
  | nil => simp
  | cons a l ih =>
    intro h1 ⟨b, hb, hbb⟩
    simp only [wAll]
    rcases h1 a (by simp) with ⟨t, ht⟩ | ht
    · rw [ht, Outcome.ok_bind]
      have : ∃ c ∈ l, f c = bad := by
        rcases List.mem_cons.1 hb with rfl | hb
        · rw [ht] at hbb; exact absurd hbb.symm (hbad t)
        · exact ⟨b, hb, hbb⟩
      rw [ih (fun c hc => h1 c (by simp [hc])) this]
      cases bad with
      | ok t => exact absurd rfl (hbad t)
      | error => rfl
      | ub => rfl
    · rw [ht]
      cases bad with
      | ok t => exact absurd rfl (hbad t)
      | error => rfl
      | ub => rfl

theorem wAll_good {α : Type} (f : α → Outcome Str) : ∀ (l : List α), (∀ a ∈ l, ∃ t, f a = .ok t) → ∃ t, wAll f l = .ok t := by
  intro l
  induction l with
  | nil => intro _; exact ⟨[], rfl⟩
  | cons a l ih =>
    intro h
    obtain ⟨t, ht⟩ := h a (by simp)
    obtain ⟨u, hu⟩ := ih fun b hb => h b (by simp [hb])
    exact ⟨_, by simp only [wAll, ht, hu, Outcome.ok_bind]; rfl⟩

theorem bind_bad {α β : Type} {x : Outcome α} {f : α → Outcome β} (bad : ∀ {γ : Type}, Outcome γ)
    (hbad : (∀ {γ : Type}, (bad : Outcome γ) = .error) ∨ ∀ {γ : Type}, (bad : Outcome γ) = .ub) (h : x = bad) : (x >>= f) = bad := by
  rcases hbad with hb | hb <;> rw [h, hb, hb] <;> rfl

/-- If each face is written or fails in the same way, and one fails, saving fails in this way. -/
theorem save_bad (env : MapText.Env N) (bad : ∀ {γ : Type}, Outcome γ)
    (hb : (∀ {γ : Type}, (bad : Outcome γ) = .error) ∨ ∀ {γ : Type}, (bad : Outcome γ) = .ub) (es : List (Ent N))
    (h1 : ∀ f ∈ faces es, (∃ t, wFace env f = .ok t) ∨ wFace env f = bad) (h2 : ∃ f ∈ faces es, wFace env f = bad) : save env es = bad := by
  have hbad : ∀ {γ : Type} (t : γ), (bad : Outcome γ) ≠ .ok t := by
    intro γ t
    rcases hb with hb | hb <;> rw [hb] <;> simp
  have brush : ∀ b : Brush N, (∀ f ∈ b.faces, (∃ t, wFace env f = .ok t) ∨ wFace env f = bad) →
      ((∃ t, wBrush env b = .ok t) ∨ wBrush env b = bad) ∧ ((∃ f ∈ b.faces, wFace env f = bad) → wBrush env b = bad) := by
    intro b hf
    have key : (∃ f ∈ b.faces, wFace env f = bad) → wBrush env b = bad := by
      intro hx
      exact bind_bad bad hb (wAll_bad _ bad (fun t => hbad t) _ hf hx)
    refine ⟨?_, key⟩
    by_cases hx : ∃ f ∈ b.faces, wFace env f = bad
    · exact .inr (key hx)
    · left
      obtain ⟨t, ht⟩ := wAll_good (wFace env) b.faces fun f hfm => (hf f hfm).resolve_right fun hc => hx ⟨f, hfm, hc⟩
      exact ⟨_, by simp only [wBrush, ht, Outcome.ok_bind]; rfl⟩
  have brushes : ∀ (bs : List (Brush N)) (i : Nat), (∀ b ∈ bs, ∀ f ∈ b.faces, (∃ t, wFace env f = .ok t) ∨ wFace env f = bad) →
      ((∃ t, wBrushes env i bs = .ok t) ∨ wBrushes env i bs = bad) ∧ ((∃ b ∈ bs, ∃ f ∈ b.faces, wFace env f = bad) → wBrushes env i bs = bad) := by
    intro bs
    induction bs with
    | nil => intro i _; exact ⟨.inl ⟨[], rfl⟩, by simp⟩
    | cons b bs ih =>
      intro i h
      obtain ⟨a1, a2⟩ := brush b (h b (by simp))
      obtain ⟨b1, b2⟩ := ih (i + 1) fun c hc => h c (by simp [hc])
      rcases a1 with ⟨t, ht⟩ | ht
      · rcases b1 with ⟨u, hu⟩ | hu
        · refine ⟨.inl ⟨_, by simp only [wBrushes, ht, hu, Outcome.ok_bind]; rfl⟩, ?_⟩
          rintro ⟨c, hc, f, hf, hff⟩
          rcases List.mem_cons.1 hc with rfl | hc
          · rw [a2 ⟨f, hf, hff⟩] at ht; exact absurd ht (hbad _)
          · rw [b2 ⟨c, hc, f, hf, hff⟩] at hu; exact absurd hu (hbad _)
        · have : wBrushes env i (b :: bs) = bad := by
            simp only [wBrushes, ht, Outcome.ok_bind]
            exact bind_bad bad hb hu
          exact ⟨.inr this, fun _ => this⟩
      · have : wBrushes env i (b :: bs) = bad := bind_bad bad hb ht
        exact ⟨.inr this, fun _ => this⟩
  have ent : ∀ e : Ent N, (∀ b ∈ e.brushes, ∀ f ∈ b.faces, (∃ t, wFace env f = .ok t) ∨ wFace env f = bad) →
      ((∃ t, wEnt env e = .ok t) ∨ wEnt env e = bad) ∧ ((∃ b ∈ e.brushes, ∃ f ∈ b.faces, wFace env f = bad) → wEnt env e = bad) := by
    intro e h
    obtain ⟨a1, a2⟩ := brushes e.brushes 0 h
    refine ⟨?_, fun hx => bind_bad bad hb (a2 hx)⟩
    rcases a1 with ⟨t, ht⟩ | ht
    · exact .inl ⟨_, by simp only [wEnt, ht, Outcome.ok_bind]; rfl⟩
    · exact .inr (bind_bad bad hb ht)
  have ents : ∀ (es : List (Ent N)) (i : Nat), (∀ e ∈ es, ∀ b ∈ e.brushes, ∀ f ∈ b.faces, (∃ t, wFace env f = .ok t) ∨ wFace env f = bad) →
      (∃ e ∈ es, ∃ b ∈ e.brushes, ∃ f ∈ b.faces, wFace env f = bad) → wEnts env i es = bad := by
    intro es
    induction es with
    | nil => intro i _; simp
    | cons e es ih =>
      rintro i h ⟨e', he', b, hbm, f, hf, hff⟩
      obtain ⟨a1, a2⟩ := ent e (h e (by simp))
      rcases a1 with ⟨t, ht⟩ | ht
      · rcases List.mem_cons.1 he' with rfl | he'
        · rw [a2 ⟨b, hbm, f, hf, hff⟩] at ht; exact absurd ht (hbad _)
        · simp only [wEnts, ht, Outcome.ok_bind]
          exact bind_bad bad hb (ih (i + 1) (fun c hc => h c (by simp [hc])) ⟨e', he', b, hbm, f, hf, hff⟩)
      · exact bind_bad bad hb ht
  simp only [faces, List.mem_flatMap] at h1 h2
  obtain ⟨f, ⟨e, he, b, hbm, hf⟩, hff⟩ := h2
  exact ents es 0 (fun e he b hb f hf => h1 f ⟨e, he, b, hb, hf⟩) ⟨e, he, b, hbm, f, hf, hff⟩

end

/-! ### C200 -/

section
variable {K : Type} [Field K] [LinearOrder K]

/-- **C200**: a face that has the style already is left as it is. -/
theorem convert_same (env : TexDef.Env K) (eps : K) (junk : Vec K) (game : Bool) (st : Style) (s : Side K) (d : Def K) (h : d.has st = true) :
    convertDef env eps junk game st s d = .ok d := by
  simp [convertDef, h]

/-- **C200**: converting to the format of Valve's editor keeps the texture coordinates of every point, unless a row is 0. Missing: the
angle, which is never set (`valve_angle_unset`). -/
theorem convert_valve_partial (env : TexDef.Env K) (hm : Maths env) (eps : K) (junk : Vec K) (game : Bool) (s : Side K) (d : Def K)
    (hd : d.has .valve = false) (hs : dot s.vecs.s.v s.vecs.s.v ≠ 0) (ht : dot s.vecs.t.v s.vecs.t.v ≠ 0) :
    ∃ (a b : Vec K × K) (sc : K × K), convertDef env eps junk game .valve s d = .ok (.valve (triple a.1, a.2) (triple b.1, b.2) none sc) ∧
      ∀ p, (valve (⟨a.1, a.2, sc.1⟩, ⟨b.1, b.2, sc.2⟩)).uvs p = s.vecs.uvs p :=
  ⟨((toValve env s.vecs).1.axis, (toValve env s.vecs).1.shift), ((toValve env s.vecs).2.axis, (toValve env s.vecs).2.shift),
    ((toValve env s.vecs).1.scale, (toValve env s.vecs).2.scale),
    by simp [convertDef, hd], fun p => convert_valve hm hs ht p⟩

/-- How the faces of a map are converted: `side` is what was computed of a face when it was read. -/
def convWith (env : TexDef.Env K) (eps : K) (junk : Vec K) (game : Bool) (st : Style) (side : Face K → Side K) (f : Face K) : Outcome (Def K) :=
  convertDef env eps junk game st (side f) f.tdef

/-- **C200**: after `--convert valve`, saving the map is undefined as soon as one face had another style: the angle of the definition is
written, and has never been set. -/
theorem valve_angle_unset (env : MapText.Env K) (tenv : TexDef.Env K) (eps : K) (junk : Vec K) (game : Bool) (side : Face K → Side K)
    (es es' : List (Ent K)) (h : convertMap (convWith tenv eps junk game .valve side) .valve es = .ok es')
    (hi : ∀ f ∈ faces es, ∀ i, f.info = some i → InfoOk i) (hr : ∀ f ∈ faces es, ∀ s t sc, f.tdef ≠ .valve s t none sc)
    (hx : ∃ f ∈ faces es, f.tdef.has .valve = false) : save env es' = .ub := by
  obtain ⟨c1, c2⟩ := convert_face _ _ _ _ h
  refine save_bad env (fun {_} => .ub) (.inr rfl) es' ?_ ?_
  · intro f' hf'
    obtain ⟨f, hf, d, hd, rfl⟩ := c1 f' hf'
    unfold convWith convertDef at hd
    split at hd
    · rename_i hv
      cases hd
      left
      cases hft : f.tdef with
      | quaked => rw [hft] at hv; cases hv
      | etp => rw [hft] at hv; cases hv
      | prim => rw [hft] at hv; cases hv
      | valve a b r sc =>
        cases r with
        | none => exact absurd hft (hr f hf a b sc)
        | some r =>
          have hw : ∃ u, wInfo env f.info = .ok u := by
            cases hfi : f.info with
            | none => exact ⟨_, rfl⟩
            | some i =>
              obtain ⟨fl, v, e, -⟩ := hi f hf i hfi
              obtain ⟨i1, i2, i3⟩ := i
              simp only [Prod.mk.injEq] at e
              obtain ⟨rfl, rfl⟩ := e
              exact ⟨_, rfl⟩
          obtain ⟨u, hu⟩ := hw
          exact ⟨_, by simp only [wFace, wDef, hu, Outcome.ok_bind]; rfl⟩
    · cases hd
      right
      simp only [wFace, wDef]
      rfl
  · obtain ⟨f, hf, hv⟩ := hx
    obtain ⟨d, hd, hm⟩ := c2 f hf
    refine ⟨_, hm, ?_⟩
    unfold convWith convertDef at hd
    rw [if_neg (by simp [hv])] at hd
    cases hd
    simp only [wFace, wDef]
    rfl

/-- **C200**: after `--convert bp`, saving is an error as soon as there is a face; and without a game, or without the texture, the
conversion is one. -/
theorem primitives_unwritable (env : MapText.Env K) (tenv : TexDef.Env K) (eps : K) (junk : Vec K) (game : Bool) (side : Face K → Side K)
    (es es' : List (Ent K)) (h : convertMap (convWith tenv eps junk game .prim side) .prim es = .ok es') (hx : faces es ≠ []) :
    save env es' = .error := by
  obtain ⟨c1, c2⟩ := convert_face _ _ _ _ h
  have bad : ∀ f' ∈ faces es', wFace env f' = .error := by
    intro f' hf'
    obtain ⟨f, hf, d, hd, rfl⟩ := c1 f' hf'
    unfold convWith convertDef at hd
    split at hd
    · rename_i hv
      cases hd
      cases hft : f.tdef with
      | quaked => rw [hft] at hv; cases hv
      | etp => rw [hft] at hv; cases hv
      | valve => rw [hft] at hv; cases hv
      | prim a b => simp only [wFace, wDef]; rfl
    · simp only at hd
      split at hd
      · cases hd
      · split at hd
        · cases hd
        · cases hd
          simp only [wFace, wDef]
          rfl
  obtain ⟨f, hf⟩ := List.exists_mem_of_ne_nil _ hx
  obtain ⟨d, -, hm⟩ := c2 f hf
  exact save_bad env (fun {_} => .error) (.inl rfl) es' (fun f hf => .inr (bad f hf)) ⟨_, hm, bad _ hm⟩

/-- **C200**: no face can be converted to the format of QuArK. -/
theorem convert_etp_error (env : TexDef.Env K) (eps : K) (junk : Vec K) (game : Bool) (s : Side K) (d : Def K) (h : d.has .etp = false) :
    convertDef env eps junk game .etp s d = .error := by
  simp [convertDef, h]

/-- A map of one face, of Quake's editor. -/
def exFaceK : Face K := ⟨(0, 0, 0), (0, 1, 0), (1, 0, 0), [97], .quaked (8, 16) 90 (1, 1), none⟩

-- there is such a map, and its conversion does not fail
example (env : MapText.Env K) (tenv : TexDef.Env K) (eps : K) (junk : Vec K) (side : Face K → Side K) :
    ∃ es', convertMap (convWith tenv eps junk false .valve side) .valve [⟨[], [⟨false, [exFaceK]⟩]⟩] = .ok es' ∧ save env es' = .ub :=
  ⟨_, rfl, valve_angle_unset env tenv eps junk false side [⟨[], [⟨false, [exFaceK]⟩]⟩] _ rfl (by simp [faces, exFaceK]) (by simp [faces, exFaceK])
    (by simp [faces, exFaceK, Def.has])⟩

example (env : MapText.Env K) (tenv : TexDef.Env K) (eps : K) (junk : Vec K) (s : Side K) (hs : s.size = some (64, 64)) :
    ∃ es', convertMap (convWith tenv eps junk true .prim (fun _ => s)) .prim [⟨[], [⟨false, [exFaceK]⟩]⟩] = .ok es' ∧ save env es' = .error := by
  obtain ⟨pl, v, a, b, c, z⟩ := s
  cases hs
  exact ⟨_, rfl, primitives_unwritable env tenv eps junk true (fun _ => ⟨pl, v, a, b, c, some (64, 64)⟩) [⟨[], [⟨false, [exFaceK]⟩]⟩] _ rfl (by simp [faces])⟩

variable [IsStrictOrderedRing K]

/-- The texture coordinates of a definition without its shift. -/
def unshifted (e : Ed K) : Ed K := { e with shift := (0, 0) }

omit [IsStrictOrderedRing K] in
theorem edUV_shift (env : TexDef.Env K) (n : Vec K) (e : Ed K) (p : Vec K) :
    edUV env n e p = ((edUV env n (unshifted e) p).1 + e.shift.1, (edUV env n (unshifted e) p).2 + e.shift.2) := by
  simp only [edUV, unshifted, add_zero]
  rfl

/-- **C200**: converting to the format of Quake's editor, without textures: what can be expressed there, with a scale of up to 1000, comes
out with the texture moved by a constant: the difference of where a first guess without shift puts the first point of the face, seen along
the axis of its plane and along the axis of a plane that was never set. -/
theorem convert_quake_moved {env : TexDef.Env K} (hm : Maths env) (junk : Vec K) {n p0 p1 p2 : Vec K} (hn : n ≠ ⟨0, 0, 0⟩)
    (hc : Corners n p0 p1 p2) {x : Tex K} {e : Ed K} (hx : ∀ p, OnFace n p0 p → x.uvs p = edUV env n e p)
    (h1 : |e.scale.1| ≤ 1000) (h2 : |e.scale.2| ≤ 1000) :
    ∃ e', toQuakeEd env junk n none x p0 p1 p2 = .ok e' ∧
      ∀ p, OnFace n p0 p → (quakeEd env n e').uvs p =
        ((x.uvs p).1 + ((edUV env n (unshifted e') p0).1 - (edUV env junk (unshifted e') p0).1),
         (x.uvs p).2 + ((edUV env n (unshifted e') p0).2 - (edUV env junk (unshifted e') p0).2)) := by
  obtain ⟨e0, h0, hu⟩ := TexDef.convert_quake hm hn hc hx
  unfold TexDef.toQuakeEd at h0
  obtain ⟨r, hr, h0⟩ := Outcome.bind_eq_ok.1 h0
  simp only [normalizeShift, Outcome.ok_bind] at h0
  cases h0
  refine ⟨_, by unfold toQuakeEd; rw [hr]; simp only [normalizeShift, Outcome.ok_bind]; rfl, ?_⟩
  intro p hp
  have hp' := (hu p hp).2.2 h1 h2
  simp only [quakeEd_new, quakeEd_uv] at hp' ⊢
  rw [edUV_shift] at hp' ⊢
  simp only [unshifted] at hp' ⊢
  rw [← hp']
  refine Prod.ext ?_ ?_ <;> simp only <;> ring

omit [IsStrictOrderedRing K] in
/-- What `convert_quake_moved` and `convert_quake_partial` say of the definition is said of the converted face. -/
theorem convert_quake_def (env : TexDef.Env K) (eps : K) (junk : Vec K) (s : Side K) (d : Def K) (hd : d.has .quaked = false) (e : Ed K) :
    toQuakeEd env junk s.plane.normal none s.vecs s.p0 s.p1 s.p2 = .ok e →
      convertDef env eps junk false .quaked s d = .ok (.quaked e.shift e.rotate e.scale) := by
  intro h
  simp [convertDef, hd, h, Outcome.ok_bind]

/-- **C200**: it is right where the plane that was never set has the same axes. Missing: the others, where it is not (`wall_moved`). -/
theorem convert_quake_partial {env : TexDef.Env K} (hm : Maths env) (junk : Vec K) {n p0 p1 p2 : Vec K} (hn : n ≠ ⟨0, 0, 0⟩)
    (hc : Corners n p0 p1 p2) {x : Tex K} {e : Ed K} (hx : ∀ p, OnFace n p0 p → x.uvs p = edUV env n e p)
    (h1 : |e.scale.1| ≤ 1000) (h2 : |e.scale.2| ≤ 1000) (hj : ∀ p, flat env.old junk p = flat env.old n p) :
    ∃ e', toQuakeEd env junk n none x p0 p1 p2 = .ok e' ∧ ∀ p, OnFace n p0 p → (quakeEd env n e').uvs p = x.uvs p := by
  obtain ⟨e', h, hu⟩ := convert_quake_moved hm junk hn hc hx h1 h2
  refine ⟨e', h, fun p hp => ?_⟩
  rw [hu p hp]
  simp [edUV, hj]

end

/-- A floor, whose axes are those of a plane that is all 0. -/
example (e : Ed ℝ) (h1 : |e.scale.1| ≤ 1000) (h2 : |e.scale.2| ≤ 1000) :
    ∃ e', toQuakeEd (realEnv true) ⟨0, 0, 0⟩ ⟨0, 0, 1⟩ none (quakeEd (realEnv true) ⟨0, 0, 1⟩ e) ⟨0, 0, 8⟩ ⟨0, 64, 8⟩ ⟨64, 0, 8⟩ = .ok e' ∧
      ∀ p, OnFace ⟨0, 0, 1⟩ ⟨0, 0, 8⟩ p → (quakeEd (realEnv true) ⟨0, 0, 1⟩ e').uvs p = (quakeEd (realEnv true) ⟨0, 0, 1⟩ e).uvs p :=
  convert_quake_partial (maths_real true) ⟨0, 0, 0⟩ (by simp) ex_corners (fun p _ => quakeEd_uv _ _ _ p) h1 h2 (by
    intro p
    norm_num [flat, realEnv])

theorem wall_corners : Corners (⟨1, 0, 0⟩ : Vec ℝ) ⟨0, 0, 64⟩ ⟨0, 64, 64⟩ ⟨0, 0, 0⟩ := by
  refine ⟨by simp [OnFace, dot], by simp [OnFace, dot], ?_⟩
  intro h
  rw [Vec.mk.injEq] at h
  have := h.1
  simp only [Place.sub, BrushBsp.cross] at this
  norm_num at this

/-- **C200** is false of walls: where the plane that was never set happens to be 0, the texture of every such wall is moved, whatever its
shift, angle and scale. -/
theorem wall_moved (e : Ed ℝ) (h1 : |e.scale.1| ≤ 1000) (h2 : |e.scale.2| ≤ 1000) :
    ∃ e', toQuakeEd (realEnv true) ⟨0, 0, 0⟩ ⟨1, 0, 0⟩ none (quakeEd (realEnv true) ⟨1, 0, 0⟩ e) ⟨0, 0, 64⟩ ⟨0, 64, 64⟩ ⟨0, 0, 0⟩ = .ok e' ∧
      ∀ p, OnFace ⟨1, 0, 0⟩ ⟨0, 0, 64⟩ p → (quakeEd (realEnv true) ⟨1, 0, 0⟩ e').uvs p ≠ (quakeEd (realEnv true) ⟨1, 0, 0⟩ e).uvs p := by
  obtain ⟨e', h, hu⟩ := convert_quake_moved (maths_real true) ⟨0, 0, 0⟩ (n := ⟨1, 0, 0⟩) (by simp) wall_corners
    (x := quakeEd (realEnv true) ⟨1, 0, 0⟩ e) (e := e) (fun p _ => quakeEd_uv _ _ _ p) h1 h2
  refine ⟨e', h, fun p hp hc => ?_⟩
  rw [hu p hp] at hc
  have hf : flat (realEnv true).old (⟨1, 0, 0⟩ : Vec ℝ) ⟨0, 0, 64⟩ = (0, -64) := by norm_num [flat, realEnv]
  have hg : flat (realEnv true).old (⟨0, 0, 0⟩ : Vec ℝ) ⟨0, 0, 64⟩ = (0, 0) := by norm_num [flat, realEnv]
  have c1 := congrArg Prod.fst hc
  have c2 := congrArg Prod.snd hc
  simp only [edUV, unshifted, hf, hg, mul_zero, zero_sub, sub_zero, zero_div, add_zero, zero_add, sub_self] at c1 c2
  have k : ∀ s : ℝ, (if s = 0 then 1 else s) ≠ 0 := by
    intro s
    split
    · norm_num
    · assumption
  have circle := (maths_real true).circle e'.rotate
  have z1 : (realEnv true).sind e'.rotate = 0 := by
    have := add_eq_left.1 c1
    have := (div_eq_zero_iff.1 this).resolve_right (k _)
    linarith
  have z2 : (realEnv true).cosd e'.rotate = 0 := by
    have := add_eq_left.1 c2
    have := (div_eq_zero_iff.1 this).resolve_right (k _)
    linarith
  rw [z1, z2] at circle
  norm_num at circle

end Verif.MapUtil
