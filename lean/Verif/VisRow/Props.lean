import Verif.VisRow.Lemmas

/-!
C01, C02: the PVS row codec.
-/

namespace Verif.VisRow

open Verif Outcome

/-- **C01.**  Whatever precedes and follows it in the lump, a row written by `CompressRow` is
read back exactly by `DecompressVis` into a buffer of the row's size. -/
theorem pvs_row_roundtrip (before row after : List UInt8) :
    decompressRow (before ++ compressRow row ++ after) before.length row.length = .ok row := by
  have := decompress_compress_aux row.length row before after []
    (List.replicate row.length 0) rfl (by simp)
  simp only [List.nil_append, List.length_nil] at this
  rw [decompressRow, this]; rfl

/-- **C01**, exact consumption: the decoder stops normally, right after the encoded row. -/
theorem pvs_row_consumed (before row after buf : List UInt8) (h : buf.length = row.length) :
    decompress (before ++ compressRow row ++ after) before.length buf 0
      = .ok (.full, row, before.length + (compressRow row).length, row.length) := by
  have := decompress_compress_aux row.length row before after [] buf rfl h
  simpa using this

example : compressRow [5, 0, 0, 0, 7, 0] = [5, 0, 3, 7, 0, 1] := by decide +kernel
example : decompressRow ([9, 9] ++ [5, 0, 3, 7, 0, 1] ++ [0, 0]) 2 6
    = .ok [5, 0, 0, 0, 7, 0] := by decide +kernel

/-- **C02.**  On arbitrary bytes, from any offset inside the lump, for any buffer size,
`DecompressVis` terminates without undefined behaviour: every byte read is inside the lump, every
byte written inside the buffer, and the buffer keeps its size. -/
theorem pvs_decompress_memory_safe (lump : List UInt8) (ofs size : Nat) (h : ofs ≤ lump.length) :
    ∃ row, decompressRow lump ofs size = .ok row ∧ row.length = size := by
  obtain ⟨s, o, i, p, e, h1, _⟩ :=
    decompress_safe_aux lump lump.length ofs (List.replicate size 0) 0 (by omega) h (by simp)
  refine ⟨o, ?_, by simpa using h1⟩
  simp [decompressRow, e]

/-- **C02**, details: the final read position is inside the lump, the final write position is
inside the buffer, and a normal end means the whole buffer was written. -/
theorem pvs_decompress_positions (lump buf : List UInt8) (ofs : Nat) (h : ofs ≤ lump.length) :
    ∃ s out ip op, decompress lump ofs buf 0 = .ok (s, out, ip, op)
      ∧ ofs ≤ ip ∧ ip ≤ lump.length ∧ op ≤ buf.length ∧ out.length = buf.length
      ∧ (s = .full → op = buf.length) := by
  obtain ⟨s, o, i, p, e, h1, h2, h3, _, h5, h6⟩ :=
    decompress_safe_aux lump lump.length ofs buf 0 (by omega) h (by omega)
  exact ⟨s, o, i, p, e, h2, h3, h5, h1, h6⟩

-- a run that overruns the buffer, a truncated run, a zero-length run
example : decompressRow [1, 0, 200] 0 4 = .ok [1, 0, 0, 0] := by decide +kernel
example : decompressRow [1, 0] 0 4 = .ok [1, 0, 0, 0] := by decide +kernel
example : decompressRow [1, 0, 0, 5] 0 4 = .ok [1, 0, 0, 0] := by decide +kernel

end Verif.VisRow
