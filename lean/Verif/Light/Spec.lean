import Verif.Light.Model

/-!
What it means that the lightmaps of a face are in the lightmap data.
-/

namespace Verif.Light

/-- The bytes `d` stand in the array `b` from address `a` on. -/
def Holds (m : Mem) (b : Buf) (a : Nat) (d : List UInt8) : Prop :=
  ∀ (k : Nat) (h : k < d.length), m b (a + k) = d[k]

/-- The lightmaps `imgs`, of `size` samples each, stand one after the other in the lightmap
data, from sample number `v` on.  A sample has one byte in the greyscale data and three bytes
in the coloured data and in the directions. -/
structure Stored (c : Cfg) (r : Result) (v size : Nat) (imgs : List Image) : Prop where
  aligned : 4 ∣ v
  inside : v + imgs.length * size ≤ r.total
  grey : c.rgb = false → ∀ (k : Nat) (h : k < imgs.length),
    Holds r.mem .grey (v + k * size) imgs[k].grey
  lit : c.rgb = true ∨ c.lit = true → ∀ (k : Nat) (h : k < imgs.length),
    Holds r.mem .lit (3 * (v + k * size)) imgs[k].rgb
  lux : c.lux = true → ∀ (k : Nat) (h : k < imgs.length),
    Holds r.mem .lux (3 * (v + k * size)) imgs[k].dir

/-- The offset in the file for sample number `v`: coloured lightmaps have three bytes for each
sample. -/
def fileOffset (c : Cfg) (v : Nat) : Int := if c.rgb then 3 * v else v

/-- Where the lightmap of a face in its own size is recorded: in the lump DECOUPLED_LM, in the
face, or in the supplementary data. -/
def ownOffset (c : Cfg) (f : Face) (o : Out) : Int :=
  match mode c f with
  | .decoupled => o.dec
  | .plain => o.face.lightofs
  | .sup => o.sup.lightofs
  | .both => o.sup.lightofs

/-- The bytes of an image for `n` samples. -/
def Image.Sized (i : Image) (n : Nat) : Prop :=
  i.grey.length = n ∧ i.rgb.length = 3 * n ∧ i.dir.length = 3 * n

/-- The lightmaps of a surface have the sizes of the surface. -/
def Lightmap.Sized (l : Lightmap) (s : Surf) : Prop :=
  l.img.Sized s.size ∧ l.vimg.Sized s.vsize ∧ l.dimg.Sized s.vsize

/-- All lightmaps of all faces have the sizes of their surfaces. -/
def Sized (fs : List Face) : Prop :=
  ∀ f ∈ fs, ∀ s, f.surf = some s → s.blank.Sized s ∧ ∀ l ∈ s.lightmaps, l.Sized s

/-- No face that gets a lightmap in two sizes has a larger one in the standard size. -/
def Tame (c : Cfg) (fs : List Face) : Prop :=
  ∀ f ∈ fs, mode c f = .both → ∀ s, f.surf = some s → s.vsize ≤ s.size

/-- The number of bytes of greyscale data that all faces need. -/
def space (c : Cfg) (fs : List Face) : Nat :=
  ((fs.flatMap (requests c)).map (fun e => align4 e.2)).sum

end Verif.Light
