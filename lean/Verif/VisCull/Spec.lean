import Verif.VisCull.Model

/-! What visibility means to `light`. -/

namespace Verif.VisCull.Spec

/-- The number of the bit that says whether a leaf is seen: its cluster in Quake II, the number of the leaf less one otherwise. -/
def BitOf (b : Bsp) (n i : Nat) : Prop :=
  ∃ l, b.leafs[n]? = some l ∧
    if b.q2 then l.cluster = i ∧ ∃ o, b.offsets[i]? = some o ∧ 0 ≤ o ∧ o < b.bits.length else n = i + 1 ∧ i < b.visleafs

/-- Where the row of a leaf begins. -/
def RowStart (b : Bsp) (n ofs : Nat) : Prop :=
  ∃ l, b.leafs[n]? = some l ∧
    if b.q2 then 0 ≤ l.cluster ∧ b.offsets[l.cluster.toNat]? = some (ofs : Int) else l.visofs = ofs

/-- The row of a leaf: it was written there by `vis`, compressed. -/
def RowOf (b : Bsp) (n : Nat) (row : List UInt8) : Prop :=
  row.length = visSize b ∧ row ≠ [] ∧ ∃ before after, b.bits = before ++ VisRow.compressRow row ++ after ∧ RowStart b n before.length

/-- A bit of a row. -/
def Bit (row : List UInt8) (i : Nat) : Prop := ∃ x, row[i / 8]? = some x ∧ x.toNat.testBit (i % 8) = true

/-- A leaf sees another one. -/
def Sees (b : Bsp) (n m : Nat) : Prop := ∃ row i, RowOf b n row ∧ BitOf b m i ∧ Bit row i

/-- The leafs that a face of the world is in. -/
def InLeaf (b : Bsp) (face n : Nat) : Prop :=
  ∃ l, b.leafs[n]? = some l ∧ ∃ i, l.firstmark ≤ i ∧ i < l.firstmark + l.nummark ∧ b.leaffaces[i]? = some face

/-- Light passes from anywhere into and out of a leaf with such contents. -/
def Plain (b : Bsp) (n : Nat) : Prop := ∃ l, b.leafs[n]? = some l ∧ l.solid = false ∧ l.sky = false ∧ l.liquid = false

/-- The leafs of a face: those it is in if it is of the world, those of its sample points otherwise. -/
def Touches (b : Bsp) (world : Bool) (face : Nat) (points : List Nat) (n : Nat) : Prop :=
  if world then InLeaf b face n else n ∈ points

/-- The leafs and the visibility that `light` works out for a face. -/
def Face (b : Bsp) (world : Bool) (face : Nat) (points leaves : List Nat) (pvs : List UInt8) : Prop :=
  ∃ rows, decompressAll b = .ok rows ∧ calcPvs b rows world face points = .ok (leaves, pvs)

end Verif.VisCull.Spec
