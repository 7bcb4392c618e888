import Verif.Light.Image
import Verif.Light.Spec

/-!
Model of the option `-litonly`: a .lit file (and a .lux file) is made for a BSP file that has
lightmaps already, and the BSP file is left as it is.  light/write.cc:610-673, 957-987,
light/light.cc:615, 1471.

The faces keep the offsets and styles of the BSP file that was read (`Face.old`).

Simplification: a pointer that leaves its array is undefined behaviour even if nothing is
stored through it.
-/

namespace Verif.Light

/-- The styles of the face up to the end mark, light/write.cc:646-651. -/
def litStyles (r : FaceRec) : List Nat :=
  (r.styles.take MAXLIGHTMAPS).takeWhile fun x => decide (x ≠ INVALID_LIGHTSTYLE_OLD)

/-- The computed lightmap of a style, light/write.cc:654-660. -/
def litImage (s : Surf) (style : Nat) : Option Image :=
  (s.lightmaps.find? fun l => decide (l.style = style)).map Lightmap.img

/-- The stores for one style of a face; nothing without a lightmap, light/write.cc:653-661. -/
def litSlot (c : Cfg) (total size ofs : Nat) : Option Image → List Store
  | some i => stores c total ofs size [i]
  | none => []

/-- The stores for one face: the pointers are advanced also for a style without lightmap,
light/write.cc:646-672. -/
def litStores (c : Cfg) (total size : Nat) : Nat → List (Option Image) → List Store
  | _, [] => []
  | ofs, x :: t =>
    litSlot c total size ofs x ++ litStores c total size (ofs + size) t

/-- `SaveLitOnlyLightmapSurface`, light/write.cc:610-673, and the test for a face without
samples, 978-980. -/
def litFace (c : Cfg) (total : Nat) (f : Face) : Outcome (List Store) :=
  match f.surf with
  | none => .ok []
  | some s =>
    if f.old.lightofs = -1 then .ok []
    else if f.old.lightofs < 0 then .error
    else do
      let v := f.old.lightofs.toNat
      let l := litStyles f.old
      tripled c total v
      if v + l.length * s.size > total then .ub
      else checked c total (litStores c total s.size v (l.map (litImage s)))

/-- The executions of `SaveLightmapSurfaces` with `-litonly` (light/write.cc:957-987) and the
contents of the arrays at the end.  `total` is the size of the lightmap data of the BSP file,
`t` the order of the stores of the parallel loop. -/
inductive LitRun (c : Cfg) (total : Nat) (fs : List Face) : Outcome Mem → Prop
  | refused : total = 0 ∨ c.rgb = true → LitRun c total fs .error
  | failed : total ≠ 0 → c.rgb = false → each (litFace c total) fs = .error →
      LitRun c total fs .error
  | undef : total ≠ 0 → c.rgb = false → each (litFace c total) fs = .ub →
      LitRun c total fs .ub
  | done (ps : List (List Store)) (t : List (Nat × Store)) :
      total ≠ 0 → c.rgb = false → each (litFace c total) fs = .ok ps → Interleaves ps t →
      LitRun c total fs (.ok (runStores (fun _ _ => 0) (t.map Prod.snd)))

end Verif.Light
