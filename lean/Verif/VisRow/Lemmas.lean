import Verif.VisRow.Model

namespace Verif.VisRow

open Verif Outcome

theorem writeAt_append (a : List UInt8) (x v : UInt8) (b : List UInt8) :
    writeAt (a ++ x :: b) a.length v = .ok (a ++ v :: b) := by
  simp [writeAt]

theorem zeroFill_exact (c : Nat) (done junk rest : List UInt8) (h : junk.length = c) :
    zeroFill c (done ++ junk ++ rest) done.length
      = .ok (false, done ++ List.replicate c 0 ++ rest, done.length + c) := by
  induction c generalizing done junk with
  | zero =>
    have : junk = [] := List.length_eq_zero_iff.mp h
    subst this; simp [zeroFill]
  | succ c ih =>
    match junk, h with
    | j :: js, h =>
      have hj : js.length = c := by simpa using h
      unfold zeroFill
      have hne : ¬ done.length = (done ++ j :: js ++ rest).length := by simp
      rw [if_neg hne]
      have hw : writeAt (done ++ j :: js ++ rest) done.length 0
          = .ok ((done ++ [0]) ++ js ++ rest) := by
        have := writeAt_append done j 0 (js ++ rest)
        simpa using this
      rw [hw]
      simp only [ok_bind]
      have := ih (done ++ [0]) js hj
      simp only [List.length_append, List.length_cons, List.length_nil] at this
      rw [show done.length + 1 = done.length + (0 + 1) by omega, this]
      simp [List.replicate_succ]
      omega

theorem zeroFill_safe (c : Nat) (out : List UInt8) (op : Nat) (h : op ≤ out.length) :
    ∃ b out' op', zeroFill c out op = .ok (b, out', op') ∧ out'.length = out.length
      ∧ op ≤ op' ∧ op' ≤ out.length := by
  induction c generalizing out op with
  | zero => exact ⟨false, out, op, rfl, rfl, Nat.le_refl _, h⟩
  | succ c ih =>
    unfold zeroFill
    split
    · exact ⟨true, out, op, rfl, rfl, Nat.le_refl _, h⟩
    · next hne =>
      have hlt : op < out.length := by omega
      simp only [writeAt, hlt, if_true, ok_bind]
      obtain ⟨b, o', p', h1, h2, h3, h4⟩ := ih (out.set op 0) (op + 1) (by rw [List.length_set]; exact hlt)
      refine ⟨b, o', p', h1, by simpa using h2, by omega, by simpa using h4⟩

theorem countRun_spec (bs : List UInt8) (rep : Nat) (h : rep ≤ 255) :
    ∃ k, (countRun bs rep).1 = rep + k ∧ rep + k ≤ 255 ∧
      bs = List.replicate k 0 ++ (countRun bs rep).2 := by
  induction bs generalizing rep with
  | nil => exact ⟨0, by simp [countRun], by omega, by simp [countRun]⟩
  | cons b bs ih =>
    unfold countRun
    split
    · exact ⟨0, by simp, by omega, by simp⟩
    · next hc =>
      rw [not_or] at hc
      obtain ⟨hb, hr⟩ := hc
      have hb : b = 0 := by simpa using hb
      obtain ⟨k, h1, h2, h3⟩ := ih (rep + 1) (by omega)
      refine ⟨k + 1, by omega, by omega, ?_⟩
      rw [List.replicate_succ, hb, List.cons_append, ← h3]

theorem decompress_compress_aux (n : Nat) : ∀ (row pre post done junk : List UInt8),
    row.length = n → junk.length = row.length →
      decompress (pre ++ compressRow row ++ post) pre.length (done ++ junk) done.length
        = .ok (.full, done ++ row, pre.length + (compressRow row).length,
            done.length + row.length) := by
  induction n using Nat.strongRecOn with
  | _ n ih =>
  intro row pre post done junk hn hj
  match row, junk, hn, hj with
  | [], junk, hn, hj =>
    have : junk = [] := List.length_eq_zero_iff.mp hj
    subst this
    unfold decompress
    simp [compressRow]
  | b :: bs, [], hn, hj => simp at hj
  | b :: bs, j :: js, hn, hj =>
    have hjl : js.length = bs.length := by simpa using hj
    by_cases hb : b = 0
    · obtain ⟨k, hk1, hk2, hk3⟩ := countRun_spec bs 1 (by omega)
      have hc : compressRow (b :: bs)
          = 0 :: UInt8.ofNat (1 + k) :: compressRow (countRun bs 1).2 := by
        rw [compressRow]; simp [hb, hk1]
      generalize hrest : (countRun bs 1).2 = rest at *
      have hlen : bs.length = k + rest.length := by rw [hk3]; simp
      have hrun : (UInt8.ofNat (1 + k)).toNat = 1 + k := by
        simp only [UInt8.toNat_ofNat']; omega
      have hrun0 : ¬ UInt8.ofNat (1 + k) = 0 := by
        intro h0
        have := congrArg UInt8.toNat h0
        rw [hrun] at this
        simp at this
      rw [hc]
      rw [decompress]
      have hlt : done.length < (done ++ j :: js).length := by simp
      rw [if_pos hlt]
      have h1 : ¬ pre.length
          = (pre ++ (0 :: UInt8.ofNat (1 + k) :: compressRow rest) ++ post).length := by
        simp
      have h2 : ¬ pre.length + 1
          = (pre ++ (0 :: UInt8.ofNat (1 + k) :: compressRow rest) ++ post).length := by
        simp
      have hg : (pre ++ (0 :: UInt8.ofNat (1 + k) :: compressRow rest) ++ post)[pre.length]?
          = some 0 := by simp
      have hg1 : (pre ++ (0 :: UInt8.ofNat (1 + k) :: compressRow rest) ++ post)[pre.length + 1]?
          = some (UInt8.ofNat (1 + k)) := by
        simp
      rw [if_neg h1]
      split
      · next hh => rw [hg] at hh; cases hh
      · next c hh =>
        rw [hg] at hh
        obtain rfl : (0 : UInt8) = c := by injection hh
        rw [if_neg (by simp), if_neg h2, hg1]
        simp only [hrun0, if_false, hrun]
        obtain ⟨ja, jb, hjab, hja⟩ : ∃ ja jb, j :: js = ja ++ jb ∧ ja.length = 1 + k :=
          ⟨(j :: js).take (1 + k), (j :: js).drop (1 + k), by simp, by
            simp; omega⟩
        have hjb : jb.length = rest.length := by
          have := congrArg List.length hjab
          simp at this; omega
        have hz := zeroFill_exact (1 + k) done ja jb hja
        rw [hjab, ← List.append_assoc, hz]
        simp only [ok_bind, Bool.false_eq_true, if_false]
        have key := ih rest.length (by simp at hn; omega) rest
          (pre ++ [0, UInt8.ofNat (1 + k)]) post (done ++ List.replicate (1 + k) 0) jb rfl hjb
        have e1 : pre ++ [0, UInt8.ofNat (1 + k)] ++ compressRow rest ++ post
            = pre ++ (0 :: UInt8.ofNat (1 + k) :: compressRow rest) ++ post := by simp
        have e2 : (pre ++ [0, UInt8.ofNat (1 + k)]).length = pre.length + 2 := by simp
        have e3 : (done ++ List.replicate (1 + k) (0 : UInt8)).length = done.length + (1 + k) := by
          simp
        rw [e1, e2, e3] at key
        rw [key]
        have e4 : done ++ List.replicate (1 + k) 0 ++ rest = done ++ b :: bs := by
          rw [hk3, hb, Nat.add_comm 1 k, List.replicate_succ]; simp
        rw [e4]
        simp
        omega
    · have hc : compressRow (b :: bs) = b :: compressRow bs := by
        rw [compressRow]; simp [hb]
      rw [hc, decompress]
      have hlt : done.length < (done ++ j :: js).length := by simp
      rw [if_pos hlt]
      have h1 : ¬ pre.length = (pre ++ (b :: compressRow bs) ++ post).length := by simp
      have hg : (pre ++ (b :: compressRow bs) ++ post)[pre.length]? = some b := by simp
      rw [if_neg h1]
      split
      · next hh => rw [hg] at hh; cases hh
      · next c hh =>
        rw [hg] at hh
        obtain rfl : b = c := by injection hh
        rw [if_pos (by simpa using hb), writeAt_append]
        simp only [ok_bind]
        have key := ih bs.length (by simp at hn; omega) bs (pre ++ [b]) post (done ++ [b]) js
          rfl hjl
        have e1 : pre ++ [b] ++ compressRow bs ++ post = pre ++ (b :: compressRow bs) ++ post := by
          simp
        have e2 : done ++ [b] ++ js = done ++ b :: js := by simp
        have e3 : done ++ [b] ++ bs = done ++ b :: bs := by simp
        rw [e1, e2, e3] at key
        simp only [List.length_append, List.length_cons, List.length_nil] at key
        rw [show pre.length + 1 = pre.length + (0 + 1) by omega,
          show done.length + 1 = done.length + (0 + 1) by omega, key]
        simp
        omega

theorem decompress_safe_aux (inp : List UInt8) : ∀ (n ip : Nat) (out : List UInt8) (op : Nat),
    inp.length - ip ≤ n → ip ≤ inp.length → op ≤ out.length →
    ∃ s out' ip' op', decompress inp ip out op = .ok (s, out', ip', op')
      ∧ out'.length = out.length ∧ ip ≤ ip' ∧ ip' ≤ inp.length ∧ op ≤ op' ∧ op' ≤ out.length
      ∧ (s = .full → op' = out.length) := by
  intro n
  induction n with
  | zero =>
    intro ip out op hn hip hop
    have : ip = inp.length := by omega
    unfold decompress
    by_cases h : op < out.length
    · rw [if_pos h, if_pos this]
      exact ⟨_, _, _, _, rfl, rfl, Nat.le_refl _, hip, Nat.le_refl _, hop, by simp⟩
    · rw [if_neg h]
      exact ⟨_, _, _, _, rfl, rfl, Nat.le_refl _, hip, Nat.le_refl _, hop, by omega⟩
  | succ n ih =>
    intro ip out op hn hip hop
    unfold decompress
    by_cases h : op < out.length
    · rw [if_pos h]
      by_cases he : ip = inp.length
      · rw [if_pos he]
        exact ⟨_, _, _, _, rfl, rfl, Nat.le_refl _, hip, Nat.le_refl _, hop, by simp⟩
      · rw [if_neg he]
        split
        · next hh => rw [List.getElem?_eq_none_iff] at hh; omega
        · next c hh =>
          split
          · simp only [writeAt, h, if_true, ok_bind]
            obtain ⟨s, o', i', p', e, h1, h2, h3, h4, h5, h6⟩ :=
              ih (ip + 1) (out.set op c) (op + 1) (by omega) (by omega)
                (by rw [List.length_set]; exact h)
            simp only [List.length_set] at h1 h5 h6
            exact ⟨s, o', i', p', e, h1, by omega, h3, by omega, h5, h6⟩
          · split
            · exact ⟨_, _, _, _, rfl, rfl, by omega, by omega, Nat.le_refl _, hop, by simp⟩
            · split
              · next hh => rw [List.getElem?_eq_none_iff] at hh; omega
              · next run hh2 =>
                split
                · exact ⟨_, _, _, _, rfl, rfl, by omega, by omega, Nat.le_refl _, hop, by simp⟩
                · obtain ⟨b, o', p', e, h1, h2, h3⟩ := zeroFill_safe run.toNat out op hop
                  rw [e]
                  simp only [ok_bind]
                  cases b with
                  | true =>
                    simp only [if_true]
                    exact ⟨_, _, _, _, rfl, h1, by omega, by omega, h2, h3, by simp⟩
                  | false =>
                    simp only [Bool.false_eq_true, if_false]
                    obtain ⟨s, o2, i2, p2, e, g1, g2, g3, g4, g5, g6⟩ :=
                      ih (ip + 2) o' p' (by omega) (by omega) (by omega)
                    exact ⟨s, o2, i2, p2, e, by omega, by omega, g3, by omega, by omega,
                      fun hs => by have := g6 hs; omega⟩
    · rw [if_neg h]
      exact ⟨_, _, _, _, rfl, rfl, Nat.le_refl _, hip, Nat.le_refl _, hop, by omega⟩

end Verif.VisRow
