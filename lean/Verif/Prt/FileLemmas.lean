import Mathlib.Data.List.Forall2
import Verif.Prt.TextLemmas
import Verif.Prt.NumLemmas

/-! Lemmas about writing and reading portal files. -/

namespace Verif.Prt

open Verif Spec

variable {V : Type}

/-- A portal of the file is a portal of the tree whose ends have the given numbers. -/
def PortalRel (snap : V → V) (field : Id → Option Int) (p : Portal V) (q : PrtPortal V) : Prop :=
  ∃ a b : Int, field p.front = some a ∧ field p.back = some b ∧ q = filePortal snap p a b

/-- What is required of a portal that is written: 1 to 64 points, numbers in range. -/
def PortalFit (field : Id → Option Int) (n : Int) (p : Portal V) : Prop :=
  0 < p.points.length ∧ p.points.length ≤ 64 ∧
    (∀ a, field p.front = some a → a = -1 ∨ (0 ≤ a ∧ a < n)) ∧ (∀ b, field p.back = some b → b = -1 ∨ (0 ≤ b ∧ b < n))

theorem ws_two : AllWs [' ', '\n'] := by
  intro c hc; simp only [List.mem_cons, List.not_mem_nil, or_false] at hc; rcases hc with rfl | rfl <;> decide

theorem lines_read {c : Coord V} {snap : V → V} (hc : CoordOk c snap) (field : Id → Option Int) (n : Int)
    (hn : n ≤ 2147483647) (id : Id) (ps : List (Portal V)) (txt : Text)
    (hfit : ∀ p ∈ ps.filter (fun p => decide (p.front = id) && p.flood), PortalFit field n p)
    (h : portalLines c field id ps = .ok txt) (w : Text) (hw : AllWs w) (rest : Text) :
    ∃ qs w', AllWs w' ∧
      getPortals c n (ps.filter (fun p => decide (p.front = id) && p.flood)).length ⟨w ++ (txt ++ rest), false, false⟩ =
        .ok (qs, ⟨w' ++ rest, false, false⟩) ∧
      List.Forall₂ (PortalRel snap field) (ps.filter (fun p => decide (p.front = id) && p.flood)) qs := by
  induction ps generalizing txt w with
  | nil =>
    simp only [portalLines, Run.ok.injEq] at h
    subst h
    exact ⟨[], w, hw, by simp [getPortals], List.Forall₂.nil⟩
  | cons p ps ih =>
    simp only [portalLines] at h
    by_cases hsel : (decide (p.front = id) && p.flood) = true
    · have hmem : (p :: ps).filter (fun p => decide (p.front = id) && p.flood) =
          p :: ps.filter (fun p => decide (p.front = id) && p.flood) := by simp [hsel]
      rw [hmem] at hfit ⊢
      obtain ⟨f0, f64, ff, fb⟩ := hfit p (by simp)
      simp only [Bool.and_eq_true, decide_eq_true_eq] at hsel
      rw [if_neg (by simp only [not_or]; exact ⟨by omega, by simp [hsel.1], by simp [hsel.2]⟩)] at h
      obtain ⟨a, ha, h⟩ := Run.bind_eq_ok.1 h
      obtain ⟨b, hb, h⟩ := Run.bind_eq_ok.1 h
      rw [Run.use_eq_ok] at ha hb
      split at h
      · exact absurd h (by simp)
      rename_i hne
      simp only [not_or] at hne
      obtain ⟨rt, hrt, h⟩ := Run.bind_eq_ok.1 h
      simp only [Run.pure_eq, Run.ok.injEq] at h
      subst h
      have fa := (ff a ha).resolve_left hne.1
      have fb := (fb b hb).resolve_left hne.2
      obtain ⟨qs, w', hw', e, rel⟩ := ih rt (fun q hq => hfit q (by simp [hq])) hrt [' ', '\n'] ws_two
      refine ⟨filePortal snap p a b :: qs, w', hw', ?_, List.Forall₂.cons ⟨a, b, ha, hb, rfl⟩ rel⟩
      simp only [List.length_cons, getPortals, List.append_assoc]
      rw [getPortal_text hc p a b n fa fb hn f0 f64 w hw]
      simp only [Run.ok_bind]
      rw [show (' ' :: '\n' :: (rt ++ rest) : Text) = [' ', '\n'] ++ (rt ++ rest) from rfl, e]
      rfl
    · have hmem : (p :: ps).filter (fun p => decide (p.front = id) && p.flood) =
          ps.filter (fun p => decide (p.front = id) && p.flood) := by simp [hsel]
      rw [hmem] at hfit ⊢
      have hskip : p.points.length = 0 ∨ p.front ≠ id ∨ p.flood = false := by
        simp only [Bool.and_eq_true, decide_eq_true_eq, not_and, Bool.not_eq_true] at hsel
        by_cases h1 : p.front = id
        · exact Or.inr (Or.inr (hsel h1))
        · exact Or.inr (Or.inl h1)
      rw [if_pos hskip] at h
      exact ih txt hfit h w hw

theorem getPortals_append (c : Coord V) (n : Int) (i j : Nat) (s s1 s2 : TStream) (qs rs : List (PrtPortal V))
    (h1 : getPortals c n i s = .ok (qs, s1)) (h2 : getPortals c n j s1 = .ok (rs, s2)) :
    getPortals c n (i + j) s = .ok (qs ++ rs, s2) := by
  induction i generalizing s qs with
  | zero =>
    simp only [getPortals, Run.ok.injEq, Prod.mk.injEq] at h1
    obtain ⟨rfl, rfl⟩ := h1
    simpa using h2
  | succ i ih =>
    simp only [getPortals] at h1
    obtain ⟨p, hp, h1⟩ := Run.bind_eq_ok.1 h1
    obtain ⟨r, hr, h1⟩ := Run.bind_eq_ok.1 h1
    simp only [Run.pure_eq, Run.ok.injEq, Prod.mk.injEq] at h1
    obtain ⟨rfl, rfl⟩ := h1
    rw [show i + 1 + j = (i + j) + 1 by omega]
    simp only [getPortals, hp, Run.ok_bind]
    rw [ih p.2 r.1 hr]
    rfl

theorem tree_read {c : Coord V} {snap : V → V} (hc : CoordOk c snap) (field : Id → Option Int) (n : Int)
    (hn : n ≤ 2147483647) (t : Tree V) (txt : Text) (hfit : ∀ p ∈ portals t, PortalFit field n p)
    (h : writePortals c field t = .ok txt) (w : Text) (hw : AllWs w) (rest : Text) :
    ∃ qs w', AllWs w' ∧
      getPortals c n (portals t).length ⟨w ++ (txt ++ rest), false, false⟩ = .ok (qs, ⟨w' ++ rest, false, false⟩) ∧
      List.Forall₂ (PortalRel snap field) (portals t) qs := by
  induction t generalizing txt w rest with
  | leaf id solid ps =>
    cases solid
    · simp only [writePortals] at h
      simp only [portals, Bool.false_eq_true, if_false] at hfit ⊢
      exact lines_read hc field n hn id ps txt hfit h w hw rest
    · simp only [writePortals, Run.ok.injEq] at h
      subst h
      exact ⟨[], w, hw, by simp [portals, getPortals], by simp [portals]⟩
  | node id detail ps l r hl hr =>
    cases detail
    · simp only [writePortals, Bool.false_eq_true, if_false] at h
      obtain ⟨a, ha, h⟩ := Run.bind_eq_ok.1 h
      obtain ⟨b, hb, h⟩ := Run.bind_eq_ok.1 h
      simp only [Run.pure_eq, Run.ok.injEq] at h
      subst h
      simp only [portals, Bool.false_eq_true, if_false, List.mem_append] at hfit ⊢
      obtain ⟨q1, w1, hw1, e1, r1⟩ := hl a (fun p hp => hfit p (Or.inl hp)) ha w hw (b ++ rest)
      obtain ⟨q2, w2, hw2, e2, r2⟩ := hr b (fun p hp => hfit p (Or.inr hp)) hb w1 hw1 rest
      refine ⟨q1 ++ q2, w2, hw2, ?_, List.rel_append r1 r2⟩
      rw [List.length_append, List.append_assoc]
      exact getPortals_append c n _ _ _ _ _ _ _ e1 e2
    · simp only [writePortals, if_true] at h
      simp only [portals, if_true] at hfit ⊢
      exact lines_read hc field n hn id ps txt hfit h w hw rest

/-! ### The cluster map -/

/-- `writeMapping` for a list of leafs. -/
def mapList (st : Num) : List Id → Int → Run (Text × Int)
  | [], vc => .ok ([], vc)
  | id :: ids, vc => do
    let a ← writeMapping (V := Unit) st (.leaf id false []) vc
    let b ← mapList st ids a.2
    pure (a.1 ++ b.1, b.2)

theorem mapList_append (st : Num) (xs ys : List Id) (vc : Int) :
    mapList st (xs ++ ys) vc = (do
      let a ← mapList st xs vc
      let b ← mapList st ys a.2
      pure (a.1 ++ b.1, b.2)) := by
  induction xs generalizing vc with
  | nil =>
    simp only [List.nil_append, mapList, Run.ok_bind]
    cases mapList st ys vc <;> simp
  | cons x xs ih =>
    simp only [List.cons_append, mapList]
    cases writeMapping (V := Unit) st (.leaf x false []) vc with
    | ok a =>
      simp only [Run.ok_bind, ih]
      cases mapList st xs a.2 with
      | ok b =>
        simp only [Run.ok_bind, Run.pure_eq]
        cases mapList st ys b.2 <;> simp
      | _ => simp
    | _ => simp

theorem writeMapping_list (st : Num) (t : Tree V) (vc : Int) : writeMapping st t vc = mapList st (openLeafs t) vc := by
  induction t generalizing vc with
  | leaf id solid ps =>
    cases solid
    · simp only [openLeafs, Bool.false_eq_true, if_false, mapList]
      rw [show writeMapping (V := V) st (.leaf id false ps) vc = writeMapping (V := Unit) st (.leaf id false []) vc from rfl]
      cases writeMapping (V := Unit) st (.leaf id false []) vc <;> simp
    · simp [writeMapping, openLeafs, mapList]
  | node id detail ps l r hl hr =>
    simp only [writeMapping, openLeafs, mapList_append, hl, hr]

theorem readCluster_end (real i : Int) (t : List Int) (w : Text) (hw : AllWs w) (rest : Text) :
    readCluster real i t ⟨w ++ '-' :: '1' :: '\n' :: rest, false, false⟩ = .ok (t, ⟨'\n' :: rest, false, false⟩) := by
  have hi := getInt_text w hw (-1) (by omega) (by omega) '\n' (by decide) rest
  rw [show intText (-1) = ['-', '1'] by decide +kernel] at hi
  simp only [List.cons_append, List.nil_append] at hi
  rw [readCluster.eq_def, hi]
  simp

theorem readCluster_num (real i : Int) (t : List Int) (w : Text) (hw : AllWs w) (v : Nat) (hv : (v : Int) < real)
    (hr : real ≤ 2147483647) (ht : t.length = (real + 1).toNat) (rest : Text) :
    readCluster real i t ⟨w ++ (intText v ++ ' ' :: rest), false, false⟩ =
      readCluster real i (t.set (v + 1) i) ⟨' ' :: rest, false, false⟩ := by
  have hi := getInt_text w hw v (by omega) (by omega) ' ' (by decide) rest
  rw [readCluster.eq_def, hi]
  simp only [Bool.false_eq_true, if_false]
  rw [if_neg (by omega), if_neg (by omega), if_pos (by omega)]
  rw [show ((v : Int) + 1).toNat = v + 1 by omega]

/-- The cluster map after reading: later entries overwrite earlier ones. -/
def setAll (t : List Int) (xs : List (Nat × Int)) : List Int := xs.foldl (fun t x => t.set (x.1 + 1) x.2) t

theorem map_read (st : Num) (real : Int) (hr : real ≤ 2147483647) (xs : List (Nat × Int × Id))
    (hx : ∀ x ∈ xs, st.leafnum x.2.2 = some (x.1 : Int) ∧ st.cluster x.2.2 = some x.2.1 ∧ (x.1 : Int) < real)
    (i j : Int) (txt : Text) (n : Nat) (h : mapList st (xs.map fun x => x.2.2) i = .ok (txt, j)) (hj : j = i + n)
    (t : List Int) (ht : t.length = (real + 1).toNat) (w : Text) (hw : AllWs w) :
    readClusters real (n + 1) i t ⟨w ++ (txt ++ ['-', '1', '\n']), false, false⟩ =
      .ok (setAll t (xs.map fun x => (x.1, x.2.1))) := by
  have hw' : AllWs ['\n'] := by intro c hc; rw [List.mem_singleton.1 hc]; decide
  induction xs generalizing i txt n t w with
  | nil =>
    simp only [List.map_nil, mapList, Run.ok.injEq, Prod.mk.injEq] at h
    obtain ⟨rfl, rfl⟩ := h
    have : n = 0 := by omega
    subst this
    simp only [readClusters, List.nil_append]
    rw [readCluster_end real i t w hw]
    simp [setAll]
  | cons x xs ih =>
    obtain ⟨v, cl, id⟩ := x
    obtain ⟨hn, hcl, hv⟩ := hx _ List.mem_cons_self
    have hx' := fun y hy => hx y (List.mem_cons_of_mem _ hy)
    simp only at hn hcl hv
    simp only [List.map_cons, mapList, writeMapping, hn, hcl, Run.use, Run.ok_bind] at h
    have hlen : ∀ k (z : Int), (t.set k z).length = (real + 1).toNat := by intro k z; simpa using ht
    by_cases h0 : cl = i
    · rw [if_neg (by simpa using h0)] at h
      simp only [Run.pure_eq, Run.ok_bind] at h
      obtain ⟨b, hb, h⟩ := Run.bind_eq_ok.1 h
      simp only [Run.ok.injEq, Prod.mk.injEq] at h
      obtain ⟨rfl, hj2⟩ := h
      subst h0
      have e := ih hx' cl b.1 n (by rw [hb, ← hj2]) hj (t.set (v + 1) cl) (hlen _ _) [' '] ws_one
      simp only [readClusters] at e ⊢
      simp only [List.append_assoc, List.cons_append, List.nil_append] at e ⊢
      rw [readCluster_num real cl t w hw v hv hr ht, e]
      simp [setAll]
    · rw [if_pos (by simpa using h0)] at h
      by_cases h1 : cl = i + 1
      · rw [if_neg (by simpa using h1)] at h
        simp only [Run.pure_eq, Run.ok_bind] at h
        obtain ⟨b, hb, h⟩ := Run.bind_eq_ok.1 h
        simp only [Run.ok.injEq, Prod.mk.injEq] at h
        obtain ⟨rfl, hj2⟩ := h
        have mono : ∀ (ys : List Id) (a : Int) (r : Text × Int), mapList st ys a = .ok r → a ≤ r.2 := by
          intro ys
          induction ys with
          | nil => intro a r hr; simp only [mapList, Run.ok.injEq] at hr; subst hr; exact Int.le_refl _
          | cons y ys ihy =>
            intro a r hr
            simp only [mapList] at hr
            obtain ⟨p, hp, hr⟩ := Run.bind_eq_ok.1 hr
            obtain ⟨q, hq, hr⟩ := Run.bind_eq_ok.1 hr
            simp only [Run.pure_eq, Run.ok.injEq] at hr
            subst hr
            have l1 := ihy _ _ hq
            have l2 : a ≤ p.2 := by
              simp only [writeMapping] at hp
              obtain ⟨c1, _, hp⟩ := Run.bind_eq_ok.1 hp
              obtain ⟨c2, _, hp⟩ := Run.bind_eq_ok.1 hp
              split at hp
              · split at hp
                · exact absurd hp (by simp)
                · simp only [Run.pure_eq, Run.ok.injEq] at hp
                  subst hp
                  simp only; omega
              · simp only [Run.pure_eq, Run.ok.injEq] at hp
                subst hp
                exact Int.le_refl _
            simp only; omega
        have hm := mono _ _ _ hb
        obtain ⟨m, rfl⟩ : ∃ m, n = m + 1 := ⟨n - 1, by omega⟩
        subst h1
        have e := ih hx' (i + 1) b.1 m (by rw [hb, ← hj2]) (by omega) (t.set (v + 1) (i + 1)) (hlen _ _) [' '] ws_one
        rw [readClusters]
        simp only [List.append_assoc, List.cons_append, List.nil_append]
        rw [readCluster_end real i t w hw]
        simp only [Run.ok_bind, Bool.false_eq_true, if_false]
        rw [readClusters] at e ⊢
        simp only [List.cons_append, List.nil_append] at e
        have e' := readCluster_num real (i + 1) t ['\n'] hw' v hv hr ht (b.1 ++ ['-', '1', '\n'])
        simp only [List.cons_append, List.nil_append] at e'
        rw [e', e]
        simp [setAll]
      · rw [if_pos (by simpa using h1)] at h
        simp at h

end Verif.Prt
