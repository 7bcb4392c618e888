import Verif.VisState.File
import Verif.VisState.BitsProps
import Mathlib.Data.List.Forall2

/-!
C05, C06: the vis state file.
-/

namespace Verif.VisState

open Verif Outcome

theorem putU32_length (v : BitVec 32) : (putU32 v).length = 4 := by simp [putU32]

theorem getU32_put (old v : BitVec 32) (s : List Byte) :
    getU32 old (putU32 v ++ s) = (v, s) := by
  have h4 := putU32_length v
  have hd : leDecode (putU32 v) = v.toNat := by
    rw [putU32, leDecode_leEncode_of_lt]; exact v.isLt
  simp only [getU32, readInto, putU32_length]
  have e1 : (putU32 v ++ s).take 4 = putU32 v := by rw [← h4, List.take_left]
  have e2 : (putU32 v ++ s).drop 4 = s := by rw [← h4, List.drop_left]
  have e3 : (putU32 old).drop (putU32 v ++ s).length = [] := by
    apply List.drop_of_length_le; simp [putU32_length]
  rw [e1, e2, e3]
  simp [hd]

theorem readCompressed_ok (buf a s : List Byte) (h : a.length ≤ buf.length) :
    readCompressed a.length buf (a ++ s) = .ok (a ++ buf.drop a.length, s) := by
  simp only [readCompressed, h, if_true, readInto]
  have e0 : (buf.take a.length).length = a.length := by simp; omega
  have e3 : (buf.take a.length).drop (a ++ s).length = [] := by
    apply List.drop_of_length_le; rw [e0]; simp
  rw [e0, e3]
  simp

/-- What a portal must look like after resuming: this is the specification of `C05`. -/
structure Resumed (n : Nat) (saved loaded : Portal) : Prop where
  /-- finished stays finished, everything else is to be (re)started -/
  status : loaded.status = if saved.status = .done then .done else .none
  mightsee : ∀ leaf, leaf < n → getBit loaded.mightsee leaf = getBit saved.mightsee leaf
  visDone : saved.status = .done →
    ∀ leaf, leaf < n → getBit loaded.visbits leaf = getBit saved.visbits leaf
  visOther : saved.status ≠ .done → ∀ leaf, leaf < n → getBit loaded.visbits leaf = .ok false
  sizes : Sized n loaded.mightsee ∧ Sized n loaded.visbits
  nummightsee : loaded.nummightsee = saved.nummightsee
  numcansee : loaded.numcansee = saved.numcansee

/-- The bitmaps of a portal are allocated for `n` leafs. -/
def WellSized (n : Nat) (p : Portal) : Prop := Sized n p.mightsee ∧ Sized n p.visbits

theorem zeroBits_getBit (n leaf : Nat) (h : leaf < n) : getBit (zeroBits n) leaf = .ok false := by
  have : leaf >>> 5 < (zeroBits n).length := by
    simp only [zeroBits, List.length_replicate, blockSize_eq, Nat.shiftRight_eq_div_pow]; omega
  rw [getBit, readAt_ok this]
  simp [zeroBits]

theorem compressBits_nonempty (n : Nat) (lb : LeafBits) (out : List Byte) (hn : 0 < numBytes n)
    (h : Sized n lb) (hc : compressBits n lb = .ok out) : out ≠ [] := by
  have hle := numBytes_le n
  obtain ⟨bs, b1, b2, b3⟩ := bytesOf_ok lb 0 (numBytes n) (by rw [h]; omega)
  obtain ⟨res, r1, r2, r3⟩ := compressLoop_spec (numBytes n) bs.length bs [] (by omega) (by simp)
  have hraw := rawCopy_ok (numBytes n) bs [] (by simp [b2])
  simp only [compressBits, b1, ok_bind, r1, hraw] at hc
  split at hc
  · next hlt =>
    simp only [pure_eq, Outcome.ok.injEq] at hc
    subst hc
    rw [r3 hlt]
    match bs, b2 with
    | [], b2 => simp at b2; omega
    | b :: bs, _ => rw [rle]; split <;> simp
  · simp only [List.nil_append, Outcome.ok.injEq] at hc
    subst hc
    intro h0; rw [h0] at b2; simp at b2; omega

theorem loadPortal_savePortal (n : Nat) (hn : numBytes n < 2 ^ 32) (p : Portal)
    (hp : WellSized n p) (old : PState) (buf s : List Byte) (hbuf : buf.length = numBytes n) :
    ∃ bytes, savePortal n p = .ok bytes ∧
      ∃ q pst buf', loadPortal n old buf (bytes ++ s) = .ok (q, pst, buf', s) ∧
        buf'.length = numBytes n ∧ Resumed n p q := by
  obtain ⟨hm, hv⟩ := hp
  obtain ⟨might, m1, m2⟩ := compressBits_fits n p.mightsee hm
  rw [← numBytes_eq] at m2
  have hml : (BitVec.ofNat 32 might.length).toNat = might.length := by
    simp only [BitVec.toNat_ofNat]; omega
  by_cases hd : p.status = .done
  · obtain ⟨vis, v1, v2⟩ := compressBits_fits n p.visbits hv
    rw [← numBytes_eq] at v2
    have hvl : (BitVec.ofNat 32 vis.length).toNat = vis.length := by
      simp only [BitVec.toNat_ofNat]; omega
    refine ⟨_, by simp only [savePortal, m1, hd, if_true, v1, ok_bind, pure_eq]; rfl, ?_⟩
    simp only [loadPortal, getPState, List.append_assoc, getU32_put, hml]
    rw [readCompressed_ok buf might (vis ++ s) (by omega)]
    obtain ⟨lm, l1, l2, l3⟩ := loadBits_compressBits n p.mightsee hm might
      (might ++ buf.drop might.length) m1 ⟨_, rfl⟩
    have hmb : ∀ leaf, leaf < n → getBit lm leaf = getBit p.mightsee leaf := by
      intro leaf hl
      have hk : leaf / 8 < numBytes n := by rw [numBytes_eq]; omega
      refine getBit_eq_of_byteAt_eq (l3 _ hk) (byteAt_ok ?_)
      rw [hm, blockSize_eq]; omega
    simp only [ok_bind, l1]
    have hst : loadStatus Status.done.code = .ok .done := by decide
    simp only [hst, ok_bind]
    by_cases hz : BitVec.ofNat 32 vis.length = 0
    · -- only possible without any leafs
      have hvis : vis = [] := by
        have := congrArg BitVec.toNat hz
        rw [hvl] at this
        exact List.length_eq_zero_iff.mp (by simpa using this)
      have hn0 : ¬ 0 < numBytes n := fun h => compressBits_nonempty n _ _ h hv v1 hvis
      have hn0 : n = 0 := by rw [numBytes_eq] at hn0; omega
      rw [if_pos hz]
      refine ⟨_, _, _, by rw [hvis]; rfl, by simp; omega, ?_⟩
      subst hn0
      exact ⟨by simp [hd], by intro l h; omega, by intro _ l h; omega, by intro _ l h; omega,
        ⟨l2, by simp [Sized, zeroBits]⟩, rfl, rfl⟩
    · rw [if_neg hz, hvl, readCompressed_ok _ vis s (by simp; omega)]
      obtain ⟨lv, w1, w2, w3⟩ := loadBits_compressBits n p.visbits hv vis
        (vis ++ List.drop vis.length (might ++ List.drop might.length buf)) v1 ⟨_, rfl⟩
      simp only [ok_bind, w1, pure_eq]
      refine ⟨_, _, _, rfl, by simp; omega, ?_⟩
      refine ⟨by simp [hd], hmb, ?_, ?_, ⟨l2, w2⟩, rfl, rfl⟩
      · intro _ leaf hl
        have hk : leaf / 8 < numBytes n := by rw [numBytes_eq]; omega
        refine getBit_eq_of_byteAt_eq (w3 _ hk) (byteAt_ok ?_)
        rw [hv, blockSize_eq]; omega
      · intro h; exact absurd hd h
  · refine ⟨_, by simp only [savePortal, m1, hd, if_false, ok_bind, pure_eq]; rfl, ?_⟩
    simp only [loadPortal, getPState, List.append_assoc, getU32_put, hml, List.nil_append,
      List.length_nil]
    rw [readCompressed_ok buf might s (by omega)]
    obtain ⟨lm, l1, l2, l3⟩ := loadBits_compressBits n p.mightsee hm might
      (might ++ buf.drop might.length) m1 ⟨_, rfl⟩
    have hmb : ∀ leaf, leaf < n → getBit lm leaf = getBit p.mightsee leaf := by
      intro leaf hl
      have hk : leaf / 8 < numBytes n := by rw [numBytes_eq]; omega
      refine getBit_eq_of_byteAt_eq (l3 _ hk) (byteAt_ok ?_)
      rw [hm, blockSize_eq]; omega
    have hst : loadStatus p.status.code = .ok .none := by
      revert hd; cases p.status <;> decide
    simp only [ok_bind, l1, hst, BitVec.ofNat_eq_ofNat, if_true, pure_eq]
    refine ⟨_, _, _, rfl, by simp; omega, ?_⟩
    refine ⟨by simp [hd], hmb, ?_, ?_, ⟨l2, by simp [Sized, zeroBits]⟩, rfl, rfl⟩
    · intro h; exact absurd h hd
    · intro _ leaf hl; exact zeroBits_getBit n leaf hl

theorem loadPortals_savePortals (n : Nat) (hn : numBytes n < 2 ^ 32) (ps : List Portal)
    (hp : ∀ p ∈ ps, WellSized n p) (s : List Byte) :
    ∃ bytes, savePortals n ps = .ok bytes ∧
      ∀ (old : PState) (buf : List Byte), buf.length = numBytes n →
      ∃ qs, loadPortals n ps.length old buf (bytes ++ s) = .ok qs ∧
        List.Forall₂ (Resumed n) ps qs := by
  induction ps with
  | nil => exact ⟨[], rfl, fun _ _ _ => ⟨[], rfl, List.Forall₂.nil⟩⟩
  | cons p ps ih =>
    obtain ⟨b, hb, hall⟩ := ih (fun q hq => hp q (List.mem_cons_of_mem _ hq))
    have hp0 := hp p (List.mem_cons_self ..)
    obtain ⟨a, ha, _⟩ := loadPortal_savePortal n hn p hp0 ⟨0, 0, 0, 0, 0⟩
      (List.replicate (numBytes n) 0) (b ++ s) (by simp)
    refine ⟨a ++ b, by simp [savePortals, ha, hb], fun old buf hbuf => ?_⟩
    obtain ⟨a', ha', q, pst, buf', h1, h2, h3⟩ :=
      loadPortal_savePortal n hn p hp0 old buf (b ++ s) hbuf
    obtain rfl : a = a' := by rw [ha] at ha'; injection ha'
    obtain ⟨qs, g1, g2⟩ := hall pst buf' h2
    refine ⟨q :: qs, ?_, List.Forall₂.cons h3 g2⟩
    simp only [List.length_cons, loadPortals, List.append_assoc, h1, ok_bind, g1, pure_eq]

/-- **C05.**  For every portal set (two in-memory portals per file portal, bitmaps allocated for
`n` leafs) saving succeeds, and loading the file for the same map succeeds and resumes every
portal correctly — whatever the uninitialised locals of the loader contained. -/
theorem state_roundtrip (numportals n : Nat) (testlevel time : BitVec 32) (ps : List Portal)
    (hn : n < 2 ^ 32) (hlen : ps.length = 2 * numportals) (hp : ∀ p ∈ ps, WellSized n p) :
    ∃ file, saveBytes numportals n testlevel time ps = .ok file ∧
      ∀ (garbage : BitVec 32) (pgarbage : PState),
        ∃ qs, loadBytes numportals n garbage pgarbage file = .ok qs ∧
          List.Forall₂ (Resumed n) ps qs := by
  have hn' : numBytes n < 2 ^ 32 := by rw [numBytes_eq]; omega
  obtain ⟨body, hb, hall⟩ := loadPortals_savePortals n hn' ps hp []
  refine ⟨_, by simp only [saveBytes, hb, ok_bind, pure_eq]; rfl, fun garbage pgarbage => ?_⟩
  obtain ⟨qs, h1, h2⟩ := hall pgarbage (List.replicate (numBytes n) 0) (by simp)
  refine ⟨qs, ?_, h2⟩
  simp only [loadBytes, List.append_assoc, getU32_put]
  rw [if_neg (by simp), if_neg (by simp), ← hlen]
  simpa using h1

/-- A file for another map (different portal or leaf count) is rejected. -/
theorem state_mismatch_rejected (numportals n numportals' n' : Nat) (testlevel time : BitVec 32)
    (ps : List Portal) (file : List Byte)
    (hs : saveBytes numportals n testlevel time ps = .ok file)
    (hne : numportals ≠ numportals' ∨ n ≠ n') (h1 : numportals < 2 ^ 32) (h2 : n < 2 ^ 32)
    (h3 : numportals' < 2 ^ 32) (h4 : n' < 2 ^ 32) (garbage : BitVec 32) (pgarbage : PState) :
    loadBytes numportals' n' garbage pgarbage file = .error := by
  simp only [saveBytes] at hs
  cases hb : savePortals n ps with
  | error => rw [hb] at hs; cases hs
  | ub => rw [hb] at hs; cases hs
  | ok body =>
    rw [hb] at hs
    simp only [ok_bind, pure_eq, Outcome.ok.injEq] at hs
    subst hs
    simp only [loadBytes, List.append_assoc, getU32_put]
    rw [if_neg (by simp), if_pos]
    rcases hne with h | h
    · left; intro e; apply h
      have := congrArg BitVec.toNat e
      simpa [Nat.mod_eq_of_lt h1, Nat.mod_eq_of_lt h3] using this
    · right; intro e; apply h
      have := congrArg BitVec.toNat e
      simpa [Nat.mod_eq_of_lt h2, Nat.mod_eq_of_lt h4] using this

-- one file portal = two memory portals, 70 leafs; the first finished, the second in progress
def examplePortals : List Portal :=
  [⟨.done, [0, 0xffffffff, 0x15], [0, 0x0fff0000, 0x1], 35, 13⟩,
   ⟨.working, [0xffffffff, 0xffffffff, 0x3f], [1, 0, 0], 70, 1⟩]

example : examplePortals.length = 2 * 1 ∧ ∀ p ∈ examplePortals, WellSized 70 p :=
  ⟨rfl, by
    intro p hp
    simp only [examplePortals, List.mem_cons, List.not_mem_nil, or_false] at hp
    rcases hp with rfl | rfl <;> exact ⟨rfl, rfl⟩⟩

/-! ### Crash safety -/

/-- **C06** (partial).  If a complete state file already existed, then whatever the crash point,
the next run resumes from the old state or from the new one.
Missing for the full claim: the case of no previous state file, which is refuted below. -/
theorem crash_safe_partial (d : Disk) (old new : List Byte) (hold : d.state = some old)
    (d' : Disk) (hc : CrashDuringSave d new d') :
    resumeFrom d' = some old ∨ resumeFrom d' = some new := by
  cases hc <;> simp [resumeFrom, hold]

/-- After a save that was not interrupted, the next run resumes from the new state. -/
theorem save_then_resume (d : Disk) (new : List Byte) :
    ∃ d', CrashDuringSave d new d' ∧ d'.state = some new ∧ resumeFrom d' = some new :=
  ⟨_, .finished, rfl, rfl⟩

/-- Two memory portals over 3 leafs: the first is finished and sees leafs 0 and 2, the second was
never started. -/
def tornPortals : List Portal := [⟨.done, [7], [5], 3, 2⟩, ⟨.none, [7], [0], 3, 0⟩]

/-- The file as it is after the first portal record was written (42 bytes). -/
def tornFile : List Byte :=
  putU32 version ++ (putU32 1 ++ (putU32 3 ++ (putU32 0 ++ (putU32 0 ++
    (putU32 2 ++ (putU32 1 ++ (putU32 1 ++ (putU32 3 ++ (putU32 2 ++ [7, 5])))))))))

/-- The remaining record. -/
def tornRest : List Byte :=
  putU32 0 ++ (putU32 1 ++ (putU32 0 ++ (putU32 3 ++ (putU32 0 ++ [7]))))

/-- **C06** is false for the first save.  A crash while the very first state file is being written
leaves a temporary file cut off after the first portal record; the next run accepts it, and since
`LoadVisState` does not check its reads, the portal that was never flowed is loaded as *finished*
with the visibility of another portal. -/
theorem crash_unsafe_first_save :
    ∃ new torn d', saveBytes 1 3 0 0 tornPortals = .ok new ∧
      CrashDuringSave ⟨none, none⟩ new d' ∧ resumeFrom d' = some torn ∧ torn ≠ new ∧
      ∀ garbage pgarbage, loadBytes 1 3 garbage pgarbage torn
        = .ok [⟨.done, [7], [5], 3, 2⟩, ⟨.done, [5], [5], 3, 2⟩] := by
  have hnew : saveBytes 1 3 0 0 tornPortals = .ok (tornFile ++ tornRest) := by decide +kernel
  have htake : (tornFile ++ tornRest).take 42 = tornFile := by decide +kernel
  refine ⟨tornFile ++ tornRest, tornFile, ⟨none, some tornFile⟩, hnew,
    htake ▸ .writing 42, rfl, by decide +kernel, ?_⟩
  intro garbage pgarbage
  simp only [loadBytes, tornFile, getU32_put]
  rw [if_neg (by simp), if_neg (by decide)]
  rw [show 2 * 1 = 1 + 1 by rfl, loadPortals]
  have h1 : loadPortal 3 pgarbage (List.replicate (numBytes 3) 0)
      (putU32 2 ++ (putU32 1 ++ (putU32 1 ++ (putU32 3 ++ (putU32 2 ++ [7, 5])))))
      = .ok (⟨.done, [7], [5], 3, 2⟩, ⟨2, 1, 1, 3, 2⟩, [5], []) := by
    simp only [loadPortal, getPState, getU32_put]
    decide +kernel
  rw [h1]
  simp only [ok_bind]
  decide +kernel

end Verif.VisState
