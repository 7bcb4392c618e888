import Verif.Atlas.Model

/-! What the images of the lightmaps are meant to be. -/

namespace Verif.Atlas.Spec

/-- Two placed lightmaps do not overlap. -/
def Apart (p q : Placed) : Prop :=
  p.x + p.rect.w ≤ q.x ∨ q.x + q.rect.w ≤ p.x ∨ p.y + p.rect.h ≤ q.y ∨ q.y + q.rect.h ≤ p.y

/-- The slot of a style is the first of the four styles of the face that is equal to it. -/
def IsSlot (r : Rect) (style j : Nat) : Prop :=
  j < 4 ∧ r.styles[j]? = some style ∧ ∀ i < j, r.styles[i]? ≠ some style

/-- Where the sample in the column `dx` and the row `dy` of a lightmap is stored: the lightmaps of a face follow each other. A
.lit file has three bytes for every byte of the file it belongs to. -/
def address (d : Data) (r : Rect) (j dx dy : Nat) : Int :=
  (if d.lit then 3 * r.ofs else r.ofs) + (if d.rgb then 3 else 1) * ((r.w * r.h * j + dy * r.w + dx : Nat) : Int)

/-- The light data has this opaque color at the address. -/
def HasColor (d : Data) (a : Int) (v : Pixel) : Prop :=
  0 ≤ a ∧
    if d.rgb then d.bytes[a.toNat]? = some v.1 ∧ d.bytes[a.toNat + 1]? = some v.2.1 ∧
      d.bytes[a.toNat + 2]? = some v.2.2.1 ∧ v.2.2.2 = 255
    else d.bytes[a.toNat]? = some v.1 ∧ v.2.1 = v.1 ∧ v.2.2.1 = v.1 ∧ v.2.2.2 = 255

/-- The point is in the lightmap. -/
def Inside (p : Placed) (x y : Nat) : Prop := p.x ≤ x ∧ x < p.x + p.rect.w ∧ p.y ≤ y ∧ y < p.y + p.rect.h

/-- All samples of the face for its styles are in the light data. -/
def DataPresent (d : Data) (r : Rect) : Prop :=
  ∀ style j, style < 254 → IsSlot r style j →
    0 ≤ address d r j 0 0 ∧ address d r j 0 0 + (if d.rgb then 3 else 1) * ((r.w * r.h : Nat) : Int) ≤ d.bytes.length

end Verif.Atlas.Spec
