import Verif.BspFile.Bspx
import Mathlib.Data.Real.Basic

/-!
Model of `WriteNormals` (light/light.cc:1243-1287), which writes the FACENORMALS lump of `-wrnormals`, and of `qv::Snap`
(include/common/qvec.hh:694-712).

Simplifications: a `float` has a real value and 32 bits, different ones can have the same value (0 and -0), and none is NaN;
comparisons are exact. The bytes are written to a list: more or fewer than were counted fail the assertion. The normals of the
faces (`FaceCacheForFNum`) are given.
-/

namespace Verif.NormalsLump

open Verif.Stream

/-- The numbers of type `float`. -/
structure Floats (F : Type) where
  val : F → ℝ
  bits : F → Int
  zero : F
  one : F
  minusOne : F

/-- `qvec3f`. -/
structure Vec (F : Type) where
  x : F
  y : F
  z : F

/-- `face_normal_t` (include/common/qvec.hh:1065-1068). -/
structure Normal (F : Type) where
  normal : Vec F
  tangent : Vec F
  bitangent : Vec F

variable {F : Type}

/-- `fabs(v - 1) < epsilon` (include/common/qvec.hh:699). -/
noncomputable def nearOne (fl : Floats F) (v : F) : Bool := decide (|fl.val v - 1| < 0.000001)

/-- `fabs(v - -1) < epsilon` (include/common/qvec.hh:704). -/
noncomputable def nearMinusOne (fl : Floats F) (v : F) : Bool := decide (|fl.val v - -1| < 0.000001)

/-- `qv::Snap` (include/common/qvec.hh:694-712): the loop over the three numbers. -/
noncomputable def snap (fl : Floats F) (n : Vec F) : Vec F :=
  if nearOne fl n.x then ⟨fl.one, fl.zero, fl.zero⟩
  else if nearMinusOne fl n.x then ⟨fl.minusOne, fl.zero, fl.zero⟩
  else if nearOne fl n.y then ⟨fl.zero, fl.one, fl.zero⟩
  else if nearMinusOne fl n.y then ⟨fl.zero, fl.minusOne, fl.zero⟩
  else if nearOne fl n.z then ⟨fl.zero, fl.zero, fl.one⟩
  else if nearMinusOne fl n.z then ⟨fl.zero, fl.zero, fl.minusOne⟩
  else n

/-- `operator<` of `qvec` (include/common/qvec.hh:145): that of `std::array`, by the first number that differs. -/
noncomputable def less (fl : Floats F) (a b : Vec F) : Bool :=
  decide (fl.val a.x < fl.val b.x) ||
    (!decide (fl.val b.x < fl.val a.x) &&
      (decide (fl.val a.y < fl.val b.y) || (!decide (fl.val b.y < fl.val a.y) && decide (fl.val a.z < fl.val b.z))))

/-- `std::set::insert` (light/light.cc:1251-1253): the elements in their order. -/
noncomputable def insert (fl : Floats F) (v : Vec F) : List (Vec F) → List (Vec F)
  | [] => [v]
  | u :: us => if less fl v u then v :: u :: us else if less fl u v then u :: insert fl v us else u :: us

/-- The vectors in the order in which they are inserted (light/light.cc:1248-1256), and in which they are looked up
(light/light.cc:1272-1280). -/
noncomputable def vectorsOf (fl : Floats F) (n : Normal F) : List (Vec F) :=
  [snap fl n.normal, snap fl n.tangent, snap fl n.bitangent]

/-- `unique_normals` (light/light.cc:1245-1256). -/
noncomputable def uniqueNormals (fl : Floats F) (faces : List (List (Normal F))) : List (Vec F) :=
  faces.foldl (fun s ns => ns.foldl (fun s n => (vectorsOf fl n).foldl (fun s v => insert fl v s) s) s) []

/-- `num_normals` (light/light.cc:1246-1256). -/
def numNormals (faces : List (List (Normal F))) : Nat := faces.foldl (fun k ns => ns.foldl (fun k _ => k + 3) k) 0

/-- `mapped_normals` (light/light.cc:1265-1270): numbers in the order of the set. -/
def mapped : List (Vec F) → Nat → List (Vec F × Nat)
  | [], _ => []
  | u :: us, k => (u, k) :: mapped us (k + 1)

/-- `mapped_normals[v]` (light/light.cc:1276-1278): 0 if there is no such key. -/
noncomputable def lookup (fl : Floats F) (v : Vec F) : List (Vec F × Nat) → Nat
  | [] => 0
  | (u, k) :: m => if less fl u v = false ∧ less fl v u = false then k else lookup fl v m

/-- `numeric_cast<uint32_t>` and `stream <=` (light/light.cc:1263, 1276-1278). -/
def putCount (n : Nat) : Outcome (List Byte) := if n < 4294967296 then .ok (u32.encode n) else .error

/-- The indices of some vectors (light/light.cc:1276-1278). -/
noncomputable def putVectors (fl : Floats F) (m : List (Vec F × Nat)) : List (Vec F) → Outcome (List Byte)
  | [] => .ok []
  | v :: vs => putCount (lookup fl v m) >>= fun a => putVectors fl m vs >>= fun b => .ok (a ++ b)

/-- The indices of a face (light/light.cc:1275-1279). -/
noncomputable def putFace (fl : Floats F) (m : List (Vec F × Nat)) : List (Normal F) → Outcome (List Byte)
  | [] => .ok []
  | n :: ns => putVectors fl m (vectorsOf fl n) >>= fun a => putFace fl m ns >>= fun b => .ok (a ++ b)

/-- The indices of all faces (light/light.cc:1272-1280). -/
noncomputable def putFaces (fl : Floats F) (m : List (Vec F × Nat)) : List (List (Normal F)) → Outcome (List Byte)
  | [] => .ok []
  | f :: fs => putFace fl m f >>= fun a => putFaces fl m fs >>= fun b => .ok (a ++ b)

/-- The bits of a vector (light/light.cc:1268). -/
def vecBits (fl : Floats F) (v : Vec F) : List Int := [fl.bits v.x, fl.bits v.y, fl.bits v.z]

/-- `WriteNormals` (light/light.cc:1243-1287): the lump. -/
noncomputable def writeNormals (fl : Floats F) (faces : List (List (Normal F))) : Outcome (List Byte) :=
  let us := uniqueNormals fl faces
  let size := 4 + 12 * us.length + 4 * numNormals faces
  putCount us.length >>= fun a =>
    let b := us.flatMap fun u => encodeFields [f32, f32, f32] (vecBits fl u)
    putFaces fl (mapped us 0) faces >>= fun c => if (a ++ b ++ c).length = size then .ok (a ++ b ++ c) else .error

end Verif.NormalsLump
