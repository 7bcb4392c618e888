import Verif.Prt.Spec

/-! Lemmas about numbers in text. -/

namespace Verif.Prt

open Verif

theorem digit_facts : ∀ d < 10, isDigit (Char.ofNat (48 + d)) = true ∧ (Char.ofNat (48 + d)).toNat = 48 + d := by
  decide +kernel

theorem digit_not_ws {c : Char} (h : isDigit c = true) : isWs c = false ∧ c ≠ '-' ∧ c ≠ '+' ∧ c ≠ '(' := by
  simp only [isDigit, Bool.and_eq_true, decide_eq_true_eq] at h
  have key : ∀ d : Char, d.toNat < 48 → c ≠ d := by
    intro d hd e
    subst e
    omega
  refine ⟨?_, key _ (by decide), key _ (by decide), key _ (by decide)⟩
  have h1 := key ' ' (by decide)
  have h2 := key '\n' (by decide)
  have h3 := key '\t' (by decide)
  have h4 := key '\r' (by decide)
  have h5 : c.toNat ≠ 11 := by omega
  have h6 : c.toNat ≠ 12 := by omega
  simp [isWs, h1, h2, h3, h4, h5, h6]

theorem natText_digits (n : Nat) : ∀ c ∈ natText n, isDigit c = true := by
  fun_induction natText n with
  | case1 n h => intro c hc; rw [List.mem_singleton.1 hc]; exact (digit_facts n h).1
  | case2 n h ih =>
    intro c hc
    rcases List.mem_append.1 hc with hc | hc
    · exact ih c hc
    · rw [List.mem_singleton.1 hc]; exact (digit_facts _ (Nat.mod_lt _ (by decide))).1

theorem natText_ne (n : Nat) : natText n ≠ [] := by
  fun_induction natText n <;> simp

theorem natText_value (n : Nat) : digitsValue (natText n) = n := by
  fun_induction natText n with
  | case1 n h => simp [digitsValue, (digit_facts n h).2]
  | case2 n h ih =>
    rw [digitsValue, List.foldl_append]
    rw [digitsValue] at ih
    rw [ih]
    simp only [List.foldl_cons, List.foldl_nil]
    rw [(digit_facts _ (Nat.mod_lt _ (by decide))).2]
    omega

theorem takeWhile_stop {α : Type} (p : α → Bool) (ds : List α) (c : α) (rest : List α) (h : ∀ d ∈ ds, p d = true)
    (hc : p c = false) : (ds ++ c :: rest).takeWhile p = ds ∧ (ds ++ c :: rest).dropWhile p = c :: rest := by
  induction ds with
  | nil => simp [hc]
  | cons d ds ih =>
    have hd := h d (by simp)
    have := ih (fun d' hd' => h d' (by simp [hd']))
    simp [hd, this.1, this.2]

/-- White space only. -/
def AllWs (w : Text) : Prop := ∀ c ∈ w, isWs c = true

theorem dropWs (w : Text) (hw : AllWs w) (c : Char) (hc : isWs c = false) (rest : Text) :
    (w ++ c :: rest).dropWhile isWs = c :: rest := (takeWhile_stop isWs w c rest hw hc).2

/-- A number that was printed is read back. -/
theorem getInt_text (w : Text) (hw : AllWs w) (v : Int) (h1 : -2147483648 ≤ v) (h2 : v ≤ 2147483647) (c : Char)
    (hc : isDigit c = false) (rest : Text) :
    getInt ⟨w ++ (intText v ++ c :: rest), false, false⟩ = (some v, ⟨c :: rest, false, false⟩) := by
  have hd := natText_digits v.natAbs
  have hn := natText_ne v.natAbs
  have hv := natText_value v.natAbs
  obtain ⟨t1, t2⟩ := takeWhile_stop isDigit (natText v.natAbs) c rest hd hc
  by_cases hneg : v < 0
  · have e : intText v = '-' :: natText v.natAbs := by simp [intText, hneg]
    rw [e]
    unfold getInt
    simp only [Bool.or_false, Bool.false_eq_true, if_false, List.cons_append]
    rw [dropWs w hw '-' (by decide)]
    simp only [takeSign, if_true, t1, t2, if_neg hn, hv]
    unfold clampInt
    rw [show -((v.natAbs : Nat) : Int) = v by omega]
    rw [if_neg (by omega), if_neg (by omega)]
    simp
  · have e : intText v = natText v.natAbs := by simp [intText, hneg]
    rw [e]
    cases hs : natText v.natAbs with
    | nil => exact absurd hs hn
    | cons d ds =>
      have hdd : isDigit d = true := hd d (by simp [hs])
      obtain ⟨q1, q2, q3, _⟩ := digit_not_ws hdd
      rw [hs] at t1 t2 hv
      unfold getInt
      simp only [Bool.or_false, Bool.false_eq_true, if_false, List.cons_append]
      rw [dropWs w hw d q1]
      simp only [takeSign, q2, q3, if_false]
      rw [List.cons_append] at t1 t2
      rw [t1, t2, if_neg (by simp), hv]
      unfold clampInt
      simp only [Bool.false_eq_true, if_false]
      rw [show ((v.natAbs : Nat) : Int) = v by omega]
      rw [if_neg (by omega), if_neg (by omega)]
      simp

theorem skipTo_found (c : Char) (pre rest : Text) (h : ∀ d ∈ pre, d ≠ c) :
    skipTo c ⟨pre ++ c :: rest, false, false⟩ = .ok ⟨rest, false, false⟩ := by
  unfold skipTo
  simp only [Bool.or_false, Bool.false_eq_true, if_false]
  rw [(takeWhile_stop (fun d => decide (d ≠ c)) pre c rest (fun d hd => by simp [h d hd]) (by simp)).2]

/-- Coordinates that are printed are read back (rounded by `snap`). -/
structure CoordOk {V : Type} (c : Coord V) (snap : V → V) : Prop where
  starts : ∀ v, ∃ d ds, c.text v = d :: ds ∧ isWs d = false
  reads : ∀ v rest, c.scan (c.text v ++ ' ' :: rest) = some (snap v, ' ' :: rest)

theorem getCoord_text {V : Type} {c : Coord V} {snap : V → V} (hc : CoordOk c snap) (w : Text) (hw : AllWs w) (v : V)
    (rest : Text) :
    getCoord c ⟨w ++ (c.text v ++ ' ' :: rest), false, false⟩ = some (snap v, ⟨' ' :: rest, false, false⟩) := by
  have hr := hc.reads v rest
  obtain ⟨d, ds, e, hd⟩ := hc.starts v
  rw [e] at hr ⊢
  unfold getCoord
  simp only [Bool.or_false, Bool.false_eq_true, if_false, List.cons_append]
  rw [dropWs w hw d hd]
  rw [List.cons_append] at hr
  simp [hr]

/-- A point after rounding. -/
def snap3 {V : Type} (snap : V → V) (p : V × V × V) : V × V × V := (snap p.1, snap p.2.1, snap p.2.2)

theorem ws_one : AllWs [' '] := by intro c hc; rw [List.mem_singleton.1 hc]; decide

theorem getPoint_text {V : Type} {c : Coord V} {snap : V → V} (hc : CoordOk c snap) (w : Text)
    (hw : ∀ d ∈ w, d ≠ '(') (p : V × V × V) (rest : Text) :
    getPoint c ⟨w ++ (pointText c p ++ rest), false, false⟩ = .ok (snap3 snap p, ⟨' ' :: rest, false, false⟩) := by
  unfold getPoint pointText
  simp only [List.cons_append, List.append_assoc, List.nil_append]
  rw [skipTo_found '(' w _ hw]
  simp only [Run.ok_bind]
  have h1 := getCoord_text hc [] (by intro c hc; simp at hc) p.1 (c.text p.2.1 ++ ' ' :: (c.text p.2.2 ++ ' ' :: ')' :: ' ' :: rest))
  rw [List.nil_append] at h1
  rw [h1]
  simp only
  have h2 := getCoord_text hc [' '] ws_one p.2.1 (c.text p.2.2 ++ ' ' :: ')' :: ' ' :: rest)
  rw [List.singleton_append] at h2
  rw [h2]
  simp only
  have h3 := getCoord_text hc [' '] ws_one p.2.2 (')' :: ' ' :: rest)
  rw [List.singleton_append] at h3
  rw [h3]
  simp only
  have h4 := skipTo_found ')' [' '] (' ' :: rest) (by intro d hd; rw [List.mem_singleton.1 hd]; decide)
  rw [List.singleton_append] at h4
  rw [h4]
  rfl

theorem getPoints_text {V : Type} {c : Coord V} {snap : V → V} (hc : CoordOk c snap) (ps : List (V × V × V))
    (hps : ps ≠ []) (w : Text) (hw : ∀ d ∈ w, d ≠ '(') (rest : Text) :
    getPoints c ps.length ⟨w ++ (ps.flatMap (pointText c) ++ rest), false, false⟩ =
      .ok (ps.map (snap3 snap), ⟨' ' :: rest, false, false⟩) := by
  induction ps generalizing w with
  | nil => exact absurd rfl hps
  | cons p ps ih =>
    simp only [List.length_cons, getPoints, List.flatMap_cons, List.append_assoc]
    rw [getPoint_text hc w hw]
    simp only [Run.ok_bind]
    cases ps with
    | nil => simp [getPoints]
    | cons q qs =>
      have := ih (by simp) [' '] (by intro d hd; rw [List.mem_singleton.1 hd]; decide)
      rw [List.singleton_append] at this
      rw [this]
      simp

/-- What a portal of the file is. -/
def filePortal {V : Type} (snap : V → V) (p : Portal V) (front back : Int) : PrtPortal V :=
  ⟨if p.flip then back else front, if p.flip then front else back, p.points.map (snap3 snap)⟩

theorem getPortal_text {V : Type} {c : Coord V} {snap : V → V} (hc : CoordOk c snap) (p : Portal V) (front back n : Int)
    (hf : 0 ≤ front ∧ front < n) (hb : 0 ≤ back ∧ back < n) (hn : n ≤ 2147483647) (h0 : 0 < p.points.length)
    (h64 : p.points.length ≤ 64) (w : Text) (hw : AllWs w) (rest : Text) :
    getPortal c n ⟨w ++ (portalText c p front back ++ rest), false, false⟩ =
      .ok (filePortal snap p front back, ⟨' ' :: '\n' :: rest, false, false⟩) := by
  unfold portalText
  simp only
  have key : ∀ a b : Int, 0 ≤ a ∧ a < n → 0 ≤ b ∧ b < n →
      getPortal c n ⟨w ++ ((intText p.points.length ++ ' ' :: (intText a ++ ' ' :: (intText b ++ ' ' ::
        (p.points.flatMap (pointText c) ++ ['\n'])))) ++ rest), false, false⟩ =
      .ok (⟨a, b, p.points.map (snap3 snap)⟩, ⟨' ' :: '\n' :: rest, false, false⟩) := by
    intro a b ha hb
    simp only [List.append_assoc, List.cons_append, List.nil_append]
    unfold getPortal
    rw [getInt_text w hw _ (by omega) (by omega) ' ' (by decide)]
    simp only
    have e1 := getInt_text [' '] ws_one a (by omega) (by omega) ' ' (by decide) (intText b ++ ' ' ::
        (p.points.flatMap (pointText c) ++ '\n' :: rest))
    rw [List.singleton_append] at e1
    rw [e1]
    simp only
    have e2 := getInt_text [' '] ws_one b (by omega) (by omega) ' ' (by decide)
        (p.points.flatMap (pointText c) ++ '\n' :: rest)
    rw [List.singleton_append] at e2
    rw [e2]
    simp only [Run.use, Run.ok_bind]
    rw [if_neg (by omega)]
    have u : ∀ x : Int, 0 ≤ x ∧ x < n → toUnsigned x = x := by
      intro x hx; unfold toUnsigned; omega
    have un : toUnsigned n = n := by unfold toUnsigned; omega
    rw [u a ha, u b hb, un, if_neg (by omega)]
    have e3 := getPoints_text hc p.points (by intro e; simp [e] at h0) [' ']
      (by intro d hd; rw [List.mem_singleton.1 hd]; decide) ('\n' :: rest)
    rw [List.singleton_append] at e3
    rw [show ((p.points.length : Nat) : Int).toNat = p.points.length by omega, e3]
    rfl
  unfold filePortal
  cases p.flip
  · simpa using key front back hf hb
  · simpa using key back front hb hf

end Verif.Prt
