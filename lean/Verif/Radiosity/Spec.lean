import Verif.Radiosity.Model

/-!
What is said about surfaces that emit or bounce light, apart from how they do it.
-/

namespace Verif.Radiosity

open Verif.Geom

variable {K : Type} [Field K] [LinearOrder K]

/-- The greatest of the three components. -/
def Brightest (c : Vec K) (b : K) : Prop :=
  (b = c.x ∨ b = c.y ∨ b = c.z) ∧ c.x ≤ b ∧ c.y ≤ b ∧ c.z ≤ b

/-- The colour that a face emits, from 0 to 255: that of its brush if there is one, then that of the light entity, then
`_sky_surface` (from 0 to 1) for a sky, then the average of its texture. -/
def Color (e : Env K) (f : Surface K) (s : Source K) (c : Vec K) : Prop :=
  f.color = some c ∨
  (f.color = none ∧ s.color = some c) ∨
  (f.color = none ∧ s.color = none ∧ s.sky = true ∧ ∃ k, e.sky = some k ∧ c = ⟨k.x * 255, k.y * 255, k.z * 255⟩) ∨
  (f.color = none ∧ s.color = none ∧ (s.sky = false ∨ e.sky = none) ∧ c = f.avg)

/-- The light that one unit of the area is to give off: the colour times the value. -/
def Wanted (e : Env K) (f : Surface K) (s : Source K) (w : Vec K) : Prop :=
  ∃ c, Color e f s c ∧ w = ⟨c.x / 255 * s.value, c.y / 255 * s.value, c.z / 255 * s.value⟩

/-- The source gives off anything: its brightest component is not zero. -/
def Bright (e : Env K) (f : Surface K) (s : Source K) : Prop := ∃ w b, Wanted e f s w ∧ Brightest w b ∧ b ≠ 0

/-- The sources of a face: its own in Quake II, then the templates meant for it. -/
def sources (f : Surface K) (ts : List (Tmpl K)) : List (Source K) :=
  (match f.own with
    | some (flags, value) =>
      if flags.testBit 0 = true ∧ value ≠ 0 then [⟨none, !flags.testBit 2, flags.testBit 2, 0, value⟩] else []
    | none => []) ++ (ts.filter (·.fits)).map fun t => ⟨t.color, decide (t.spot ≠ some 0), decide (t.sky ≠ 0), t.style, t.light⟩

/-- The light that `n` points with a setting give off together. -/
def given (n : Nat) (st : Setting K) : Vec K :=
  ⟨n * st.intensity * st.color.x, n * st.intensity * st.color.y, n * st.intensity * st.color.z⟩

/-- The light `w` per unit of area, from the whole area. -/
def over (a : K) (w : Vec K) : Vec K := ⟨a * w.x, a * w.y, a * w.z⟩

/-- What a setting made of a source says, apart from its strength. -/
structure Says (f : Surface K) (s : Source K) (st : Setting K) : Prop where
  level : st.level = none
  target : ∀ t, f.target = some t → st.style = t
  style : f.target = none → ∀ t, f.style = some t → st.style = t
  other : f.target = none → f.style = none → st.style = s.style
  omni : st.omni = true ↔ s.directional = false
  rescale : ∀ r, f.rescale = some r → st.rescale = r
  rescale' : f.rescale = none → (st.rescale = true ↔ s.sky = false)

/-- The strength of the setting: all points together give off the light that is wanted, times `k`. -/
def Strong (n : Nat) (a k : K) (w : Vec K) (st : Setting K) : Prop := given n st = over k (over a w)

end Verif.Radiosity

namespace Verif.Radiosity

open Verif.Geom

variable {K : Type} [Field K] [LinearOrder K]

/-- Light of this style is bounced. -/
def Counted (styled : Bool) (m : Lm K) : Prop := m.style = 0 ∨ styled = true

/-- The light that one unit of the area is to bounce: the light of the map, averaged over `n` samples and tinted. -/
def sent (f : BFace K) (n : Nat) (m : Lm K) : Vec K :=
  ⟨m.bounce.x / n * f.blend.x, m.bounce.y / n * f.blend.y, m.bounce.z / n * f.blend.z⟩

/-- There is light to bounce. -/
def Shines (styled : Bool) (f : BFace K) (n : Nat) (m : Lm K) : Prop :=
  Counted styled m ∧ f.emissive = true ∧ ∃ b, Brightest (sent f n m) b ∧ b > 0

/-- A light map after the pass: its light is taken if it is counted, and kept if not. -/
structure Taken (styled : Bool) (m m' : Lm K) : Prop where
  style : m'.style = m.style
  samples : m'.samples = m.samples
  taken : Counted styled m → m'.bounce = ⟨0, 0, 0⟩
  kept : ¬ Counted styled m → m'.bounce = m.bounce

/-- The settings of a face. -/
def settings (v : Option (Vpl K)) : List (Setting K) :=
  match v with
  | some l => l.styles
  | none => []

/-- The points of a face. -/
def points (v : Option (Vpl K)) : List (Vec K) :=
  match v with
  | some l => l.points
  | none => []

/-- A setting for the light of a map, bounced at `depth` from `k` points. -/
structure Bounced (f : BFace K) (n depth k : Nat) (m : Lm K) (st : Setting K) : Prop where
  level : st.level = some depth
  style : st.style = m.style
  omni : st.omni = false
  strong : ∀ b, Brightest (sent f n m) b →
    (b > 1 → Strong k f.area 1 (sent f n m) st) ∧ (b ≤ 1 → Strong k f.area b (sent f n m) st)

end Verif.Radiosity
