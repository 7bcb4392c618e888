import Verif.Common.Outcome

/-!
Model of the list of texinfos that qbsp keeps while it reads the map (qbsp/map.cc:582-627), and of their export to the
file (qbsp/writebsp.cc:56-104).

Simplifications: texture vectors and surface flags are arbitrary types with decidable equality (the real comparison is
the lexicographic one of `qbsp/qbsp.cc:255-263`, and the assertion that no vector is NaN is left out); names are lists of
characters; a new texinfo has no number in the file yet (the callers reset it, or run before any export).
-/

namespace Verif.Emit

variable {V F : Type} [DecidableEq V] [DecidableEq F]

/-- The members of `maptexinfo_t` that `operator<` compares (include/qbsp/qbsp.hh:266-277, qbsp/qbsp.cc:255-258). -/
structure TexKey (V F : Type) where
  vecs : V
  miptex : Nat
  flags : F
  value : Int
  next : Option Nat
  deriving DecidableEq

/-- `maptexinfo_t` (include/qbsp/qbsp.hh:266-277). -/
structure TexInfo (V F : Type) where
  key : TexKey V F
  outputnum : Option Nat
  deriving DecidableEq

/-- `map.mtexinfos` and `map.mtexinfo_lookup`. -/
structure TexDb (V F : Type) where
  infos : List (TexInfo V F)
  lookup : List (TexKey V F × Nat)

/-- `mtexinfo_lookup.find` (qbsp/map.cc:593-596). -/
def findKey (l : List (TexKey V F × Nat)) (k : TexKey V F) : Option Nat := (l.find? fun e => e.1 = k).map (·.2)

/-- `mtexinfos[n].next = …` (qbsp/map.cc:623). -/
def setNext (l : List (TexInfo V F)) (n m : Nat) : List (TexInfo V F) :=
  l.modify n fun t => { t with key := { t.key with next := some m } }

/-- `FindTexinfo` with `add` (qbsp/map.cc:582-627); `anims` are the `animation_miptex` of `map.miptex`. The first argument
bounds the depth of the recursion; `none`: it was too small. -/
def findTexinfo (anims : List (Option Nat)) : Nat → TexKey V F → TexDb V F → Option (Outcome (Nat × TexDb V F))
  | 0, _, _ => none
  | fuel + 1, k, db =>
    match findKey db.lookup k with
    | some n => some (.ok (n, db))
    | none =>
      let n := db.infos.length
      let db1 : TexDb V F := ⟨db.infos ++ [⟨k, none⟩], db.lookup ++ [(k, n)]⟩
      match anims[k.miptex]? with
      | none => some .ub
      | some none => some (.ok (n, db1))
      | some (some m) =>
        match findTexinfo anims fuel { k with miptex := m } db1 with
        | none => none
        | some (.ok (n', db2)) => some (.ok (n, { db2 with infos := setNext db2.infos n n' }))
        | some .error => some .error
        | some .ub => some .ub

/-- `mtexinfo_t` (include/common/bspfile_generic.hh:230-242); `next = none` is -1. -/
structure DTex (V F : Type) where
  vecs : V
  flags : F
  miptex : Nat
  value : Int
  texture : List Char
  next : Option Nat
  deriving DecidableEq

/-- `map.mtexinfos` and `map.bsp.texinfo`. -/
structure XSt (V F : Type) where
  infos : List (TexInfo V F)
  out : List (DTex V F)

/-- What the export reads of the options and of `map.miptex`. `skip`: the flags of texinfos that are not written
(qbsp/writebsp.cc:62-67); `valid`: `surfflags_t::is_valid`; the names and values of the textures. -/
structure XOpts (F : Type) where
  skip : F → Bool
  valid : F → Bool
  miptex : List (List Char × Int)

/-- The record that is written (qbsp/writebsp.cc:80-95): the name is cut after 31 characters. -/
def texRecord (k : TexKey V F) (m : List Char × Int) : DTex V F :=
  ⟨k.vecs, k.flags, k.miptex, m.2, m.1.take 31, none⟩

/-- `ExportMapTexinfo` (qbsp/writebsp.cc:56-104): the number in the file (`none` is -1) and the state. The first argument
bounds the depth of the recursion. -/
def exportTexinfo (o : XOpts F) : Nat → Nat → XSt V F → Option (Outcome (Option Nat × XSt V F))
  | 0, _, _ => none
  | fuel + 1, n, s =>
    match s.infos[n]? with
    | none => some .error
    | some t =>
      match t.outputnum with
      | some i => some (.ok (some i, s))
      | none =>
        if o.skip t.key.flags then some (.ok (none, s))
        else if !o.valid t.key.flags then some .error
        else
          match o.miptex[t.key.miptex]? with
          | none => some .error
          | some m =>
            let i := s.out.length
            let s1 : XSt V F := ⟨s.infos.set n { t with outputnum := some i }, s.out ++ [texRecord t.key m]⟩
            match t.key.next with
            | none => some (.ok (some i, s1))
            | some nx =>
              match exportTexinfo o fuel nx s1 with
              | none => none
              | some (.ok (r, s2)) => some (.ok (some i, { s2 with out := s2.out.modify i fun d => { d with next := r } }))
              | some .error => some .error
              | some .ub => some .ub

/-- The texinfos of all faces and brush sides are exported, one after the other. -/
def exportTexinfos (o : XOpts F) : List Nat → XSt V F → Option (Outcome (List (Option Nat) × XSt V F))
  | [], s => some (.ok ([], s))
  | n :: l, s =>
    match exportTexinfo o (s.infos.length + 1) n s with
    | none => none
    | some .error => some .error
    | some .ub => some .ub
    | some (.ok (i, s1)) =>
      match exportTexinfos o l s1 with
      | none => none
      | some .error => some .error
      | some .ub => some .ub
      | some (.ok (is, s2)) => some (.ok (i :: is, s2))

end Verif.Emit
