import Verif.Shadow.Model

/-!
What C212 and C213 say, apart from the model.
-/

namespace Verif.Shadow.Spec

/-- A model that casts shadows of some kind. -/
def Casts (m : Mdl) : Prop :=
  m.isWorld = true ∨ m.shadow = true ∨ m.shadowself = true ∨ m.shadowworldonly = true ∨ m.switchable = true ∨ m.mask ≠ 1

/-- Two masks have a channel in common. -/
def Shares (a b : Mask) : Prop := ∃ i, a.getLsbD i = true ∧ b.getLsbD i = true

/-- The channels of a face: its own, or else those of its model. -/
def channels (m : Mdl) (f : Fc) : Mask := f.mask.getD m.mask

/-- A face whose channels were set to something else than the default. -/
def Special (m : Mdl) (f : Fc) : Prop := m.mask ≠ 1 ∨ ∃ k, f.mask = some k ∧ k ≠ 1

/-- A model with `_shadowself` or `_shadowworldonly` shadows a surface of `src`. -/
def Reaches (m : Mdl) (src : Option Mdl) : Prop :=
  (m.shadowworldonly = true → ∃ s, src = some s ∧ s.isWorld = true) ∧ (m.shadowself = true → ∃ s, src = some s ∧ s.id = m.id)

/-- A pane of glass. -/
def Glass (g : Game) (m : Mdl) (f : Fc) : Prop :=
  if g.q2 then f.alphatest = false ∧ (f.trans33 = true ∨ f.trans66 = true) else faceAlpha g m f < 1

/-- A fence: a texture with holes. -/
def Fence (g : Game) (f : Fc) : Prop := if g.q2 then f.alphatest = true else f.name.head? = some 123

/-- A face that was made invisible in Quake 2, and is not sky. -/
def Hidden (g : Game) (f : Fc) : Prop := g.q2 = true ∧ f.nodraw = true ∧ f.sky = false

/-- A face light may pass: by its alpha, its flags or its name. -/
def Passable (g : Game) (m : Mdl) (f : Fc) : Prop :=
  faceAlpha g m f < 1 ∨ (g.q2 = true ∧ (f.alphatest = true ∨ f.trans33 = true ∨ f.trans66 = true)) ∨ f.name.head? = some 123

/-- The sky: by its flags, or by its name. -/
def Sky (g : Game) (f : Fc) : Prop :=
  if g.q2 then f.sky = true ∧ (g.arghrad = true → f.light = true ∧ f.value ≠ 0)
  else ∃ a b c l, f.name = a :: b :: c :: l ∧ (a = 115 ∨ a = 83) ∧ (b = 107 ∨ b = 75) ∧ (c = 121 ∨ c = 89)

/-- A liquid: by its flags, or by its name. -/
def Liquid (g : Game) (f : Fc) : Prop :=
  if g.q2 then f.trans33 = true ∨ f.trans66 = true ∨ f.warp = true else f.name.head? = some 42

/-- A face of the ray tracer's map, on the way of light with a mask. -/
def There (g : Game) (k : Mask) (m : Mdl) (f : Fc) : Prop :=
  Casts m ∧ f.noShadow = false ∧ Shares (channels m f) k ∧ (m.switchable = true ∨ Special m f ∨ ¬ Hidden g f)

/-- The texel stops light: the face is no glass, and no hole of a fence. -/
def Stops (g : Game) (m : Mdl) (f : Fc) (t : Texel) : Prop := ¬ Glass g m f ∧ (Fence g f → t.a = 255)

/-- A triangle stops the light on its way to a surface of `src`. -/
def Blocks (g : Game) (src : Option Mdl) (k : Mask) (h : Hit) : Prop :=
  match h.part with
  | .leaf => True
  | .face m f => There g k m f ∧ m.switchable = false ∧
      ((Special m f ∨ Passable g m f) ∧ Reaches m src ∧ Stops g m f h.texel ∨
       (¬ Special m f ∧ ¬ Passable g m f) ∧
        (Sky g f ∨ ¬ Sky g f ∧ Liquid g f ∧ m.isWorld = false ∨
          ¬ Sky g f ∧ ¬ Liquid g f ∧ (m.isWorld = true ∨ m.shadow = true ∨ Reaches m src)))

/-- A triangle tints the light: a pane of glass, met from its front. -/
def Tints (g : Game) (src : Option Mdl) (k : Mask) (h : Hit) (c : Col) (o : ℚ) : Prop :=
  ∃ m f, h.part = .face m f ∧ There g k m f ∧ m.switchable = false ∧ Reaches m src ∧ Glass g m f ∧ h.front = true ∧
    c = h.texel.col ∧ o = max 0 (min (if h.texel.a < 255 then (h.texel.a.toNat : ℚ) / 255 else faceAlpha g m f) 1)

/-- A triangle makes the light switchable, with a style. -/
def Switches (g : Game) (src : Option Mdl) (k : Mask) (h : Hit) (s : Int) : Prop :=
  ∃ m f, h.part = .face m f ∧ There g k m f ∧ m.switchable = true ∧ Reaches m src ∧ s = m.style

/-- An order in which the ray tracer may meet the triangles: all of them, and some perhaps again. -/
def Order (hits order : List Hit) : Prop := ∀ h, h ∈ order ↔ h ∈ hits

/-- No triangle was made from a leaf, unless the light has the default mask. -/
def Known (k : Mask) (hits : List Hit) : Prop := k = 1 ∨ ∀ h ∈ hits, h.part ≠ .leaf

/-- Light passes these triangles, whatever the order. -/
def Lit (g : Game) (src : Option Mdl) (k : Mask) (hits : List Hit) : Prop :=
  ∀ order, Order hits order → ∃ n, occluded g src k order fresh = .ok (n, false)

/-- Light is stopped by one of these triangles, whatever the order. -/
def Dark (g : Game) (src : Option Mdl) (k : Mask) (hits : List Hit) : Prop :=
  ∀ order, Order hits order → ∃ n, occluded g src k order fresh = .ok (n, true)

end Verif.Shadow.Spec
