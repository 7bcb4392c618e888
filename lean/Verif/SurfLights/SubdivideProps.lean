import Verif.SurfLights.CutLemmas

/-!
The pieces into which a face is cut for surface lights (C192).
-/

namespace Verif.SurfLights

open Verif.Geom

variable {K : Type} [Field K] [LinearOrder K] [IsStrictOrderedRing K]

/-! ## One cut -/

theorem cut_area (i : Fin 3) (m D : K) (n : Vec K) (v : Vec K) (vs f b : List (Vec K)) (hpl : Planar n D (v :: vs))
    (p q : Vec K) (hp : p ∈ v :: vs) (hq : q ∈ v :: vs) (hpq : coord i p ≠ coord i q)
    (h : walk i m (v :: vs ++ [v]) [] [] = .ok (f, b)) : area2 n f + area2 n b = area2 n (v :: vs) := by
  obtain ⟨hf, hb⟩ := walk_ok i m _ _ _ f b h
  rw [List.nil_append] at hf hb
  obtain ⟨g, hg⟩ := line_potential i m D n p q (hpl p hp) (hpl q hq) hpq
  obtain ⟨r, hr⟩ := refine_head i m v vs v
  have hRpl : Planar n D (refine' i m (v :: vs ++ [v])) := planar_of_inside hpl (inside_refine i m v vs)
  -- the sum with the potential taken off, and zero away from the plane of the polygon
  let E : Vec K → Vec K → K := fun a b => dot n (cross a b)
  let E' : Vec K → Vec K → K := fun a b => if dot n a = D ∧ dot n b = D then E a b - (g b - g a) else 0
  have hE' : ∀ a b, coord i a - m = 0 → coord i b - m = 0 → E' a b = 0 := by
    intro a b ha hb
    change (if _ then _ else _) = _
    split
    · next h =>
      change dot n (cross a b) - (g b - g a) = 0
      rw [hg a b h.1 h.2 ha hb]
      ring
    · rfl
  have key : ∀ l : List (Vec K), Planar n D l → area2 n l = around E' l := by
    intro l hl
    rw [area2_eq, ← around_sub _ g]
    apply around_congr
    intro a ha b hb
    change _ = (if _ then _ else _)
    rw [if_pos ⟨hl a ha, hl b hb⟩]
  have hfl : Planar n D f := fun u hu => hRpl u (by rw [hf] at hu; exact (List.mem_filter.1 hu).1)
  have hbl : Planar n D b := fun u hu => hRpl u (by rw [hb] at hu; exact (List.mem_filter.1 hu).1)
  have hch := refine_chain i m v vs v
  have hR : area2 n (refine' i m (v :: vs ++ [v])) = area2 n (v :: vs) := by
    rw [hr]
    change along _ (v :: r ++ [v]) = along _ (v :: vs ++ [v])
    rw [← hr]
    apply refine_along
    intro a b hab
    have hab' : coord i a - m - (coord i b - m) ≠ 0 := sub_ne_zero.2 hab
    unfold crossing
    simp only [dot, cross]
    generalize (coord i a - m) / (coord i a - m - (coord i b - m)) = t
    ring
  rw [← hR, key f hfl, key b hbl, key _ hRpl, hf, hb]
  rw [hr] at hch ⊢
  exact (around_parts (fun p => coord i p - m) E' hE' v r hch).symm

theorem cut_mem (i : Fin 3) (m : K) (v : Vec K) (vs f b : List (Vec K))
    (h : walk i m (v :: vs ++ [v]) [] [] = .ok (f, b)) :
    (∀ u ∈ f, Inside (v :: vs) u ∧ m ≤ coord i u) ∧ (∀ u ∈ b, Inside (v :: vs) u ∧ coord i u ≤ m) ∧
      (∀ u ∈ v :: vs, m ≤ coord i u → u ∈ f) ∧ (∀ u ∈ v :: vs, coord i u ≤ m → u ∈ b) := by
  obtain ⟨hf, hb⟩ := walk_ok i m _ _ _ f b h
  rw [List.nil_append] at hf hb
  refine ⟨?_, ?_, ?_, ?_⟩
  · intro u hu
    rw [hf, List.mem_filter, decide_eq_true_eq] at hu
    exact ⟨inside_refine i m v vs u hu.1, by linarith [hu.2]⟩
  · intro u hu
    rw [hb, List.mem_filter, decide_eq_true_eq] at hu
    exact ⟨inside_refine i m v vs u hu.1, by linarith [hu.2]⟩
  · intro u hu hm
    rw [hf, List.mem_filter, decide_eq_true_eq]
    exact ⟨refine_mem i m v vs v u hu, by linarith⟩
  · intro u hu hm
    rw [hb, List.mem_filter, decide_eq_true_eq]
    exact ⟨refine_mem i m v vs v u hu, by linarith⟩

/-! ## Bounds -/

omit [IsStrictOrderedRing K] in
theorem lo_spec (i : Fin 3) (v : Vec K) (vs : List (Vec K)) :
    (∀ u ∈ v :: vs, lo i v vs ≤ coord i u) ∧ ∃ u ∈ v :: vs, lo i v vs = coord i u := by
  unfold lo
  induction vs using List.reverseRecOn with
  | nil => simp
  | append_singleton vs w ih =>
    rw [List.foldl_append]
    simp only [List.foldl_cons, List.foldl_nil]
    obtain ⟨h1, u, hu, e⟩ := ih
    have hsub : ∀ x ∈ v :: vs, x ∈ v :: (vs ++ [w]) := by
      intro x hx
      rcases List.mem_cons.1 hx with rfl | hx
      · exact List.mem_cons_self
      · exact List.mem_cons_of_mem _ (List.mem_append_left _ hx)
    constructor
    · intro x hx
      have : x ∈ v :: vs ∨ x = w := by
        rcases List.mem_cons.1 hx with rfl | hx
        · exact Or.inl List.mem_cons_self
        · rcases List.mem_append.1 hx with hx | hx
          · exact Or.inl (List.mem_cons_of_mem _ hx)
          · exact Or.inr (List.mem_singleton.1 hx)
      rcases this with hx | rfl
      · exact le_trans (min_le_left _ _) (h1 x hx)
      · exact min_le_right _ _
    · rcases le_total (vs.foldl (fun m u => min m (coord i u)) (coord i v)) (coord i w) with h | h
      · rw [min_eq_left h]
        exact ⟨u, hsub u hu, e⟩
      · rw [min_eq_right h]
        exact ⟨w, by simp, rfl⟩

omit [IsStrictOrderedRing K] in
theorem hi_spec (i : Fin 3) (v : Vec K) (vs : List (Vec K)) :
    (∀ u ∈ v :: vs, coord i u ≤ hi i v vs) ∧ ∃ u ∈ v :: vs, hi i v vs = coord i u := by
  unfold hi
  induction vs using List.reverseRecOn with
  | nil => simp
  | append_singleton vs w ih =>
    rw [List.foldl_append]
    simp only [List.foldl_cons, List.foldl_nil]
    obtain ⟨h1, u, hu, e⟩ := ih
    have hsub : ∀ x ∈ v :: vs, x ∈ v :: (vs ++ [w]) := by
      intro x hx
      rcases List.mem_cons.1 hx with rfl | hx
      · exact List.mem_cons_self
      · exact List.mem_cons_of_mem _ (List.mem_append_left _ hx)
    constructor
    · intro x hx
      have : x ∈ v :: vs ∨ x = w := by
        rcases List.mem_cons.1 hx with rfl | hx
        · exact Or.inl List.mem_cons_self
        · rcases List.mem_append.1 hx with hx | hx
          · exact Or.inl (List.mem_cons_of_mem _ hx)
          · exact Or.inr (List.mem_singleton.1 hx)
      rcases this with hx | rfl
      · exact le_trans (h1 x hx) (le_max_left _ _)
      · exact le_max_right _ _
    · rcases le_total (vs.foldl (fun m u => max m (coord i u)) (coord i v)) (coord i w) with h | h
      · rw [max_eq_right h]
        exact ⟨w, by simp, rfl⟩
      · rw [max_eq_left h]
        exact ⟨u, hsub u hu, e⟩

variable [FloorRing K]

theorem middle_near (size : K) (hs : 0 < size) (i : Fin 3) (v : Vec K) (vs : List (Vec K)) :
    |middle size i v vs - (lo i v vs + hi i v vs) * (1 / 2)| ≤ size * (1 / 2) := by
  unfold middle
  generalize (lo i v vs + hi i v vs) * (1 / 2) = c
  have h1 := Int.floor_le (c / size + 1 / 2)
  have h2 := Int.lt_floor_add_one (c / size + 1 / 2)
  generalize (⌊c / size + 1 / 2⌋ : K) = z at *
  have e : c = size * (c / size) := by field_simp
  generalize c / size = q at *
  subst e
  rw [abs_le]
  constructor
  · have := mul_le_mul_of_nonneg_left (le_of_lt h2) (le_of_lt hs)
    linarith
  · have := mul_le_mul_of_nonneg_left h1 (le_of_lt hs)
    linarith

theorem narrow_width (size : K) (hs : 0 < size) (i : Fin 3) (v : Vec K) (vs : List (Vec K))
    (h : narrow size i v vs = true) : hi i v vs - lo i v vs < size + 16 := by
  have hm := abs_le.1 (middle_near size hs i v vs)
  unfold narrow at h
  rw [Bool.or_eq_true, decide_eq_true_eq, decide_eq_true_eq] at h
  rcases h with h | h <;> linarith [hm.1, hm.2]

theorem axis_none (size : K) (v : Vec K) (vs : List (Vec K)) :
    axis size v vs = none ↔ ∀ i, narrow size i v vs = true := by
  unfold axis
  rw [List.find?_eq_none]
  constructor
  · intro h i
    have := h i (by fin_cases i <;> simp)
    simpa using this
  · intro h i _
    simp [h i]

theorem axis_some (size : K) (v : Vec K) (vs : List (Vec K)) (i : Fin 3) (h : axis size v vs = some i) :
    8 ≤ hi i v vs - middle size i v vs ∧ 8 ≤ middle size i v vs - lo i v vs := by
  have := List.find?_some h
  unfold narrow at this
  rw [Bool.not_eq_true', Bool.or_eq_false_iff, decide_eq_false_iff_not, decide_eq_false_iff_not, not_lt, not_lt] at this
  exact this

theorem within_of_coord (w : K) (vs : List (Vec K)) (h : ∀ i, ∀ a ∈ vs, ∀ b ∈ vs, coord i a - coord i b < w) :
    Within w vs := fun a ha b hb => ⟨h 0 a ha b hb, h 1 a ha b hb, h 2 a ha b hb⟩

/-- A call that cuts. -/
theorem subdivide_cut (size : K) (fuel : Nat) (v : Vec K) (vs : List (Vec K)) (pieces : List (List (Vec K)))
    (h : subdivide size (fuel + 1) (v :: vs) = some (.ok pieces)) :
    (axis size v vs = none ∧ pieces = [v :: vs]) ∨
      ∃ i f b ps qs, axis size v vs = some i ∧ walk i (middle size i v vs) (v :: vs ++ [v]) [] [] = .ok (f, b) ∧
        subdivide size fuel f = some (.ok ps) ∧ subdivide size fuel b = some (.ok qs) ∧ pieces = ps ++ qs := by
  unfold subdivide at h
  split at h
  · cases h
  · split at h
    · next ha =>
      cases h
      exact Or.inl ⟨ha, rfl⟩
    · next i ha =>
      split at h
      · cases h
      · split at h
        · cases h
        · cases h
        · next f b hw =>
          split at h
          · cases h
          · cases h
          · cases h
          · next ps hps =>
            split at h
            · cases h
            · cases h
            · cases h
            · next qs hqs =>
              cases h
              exact Or.inr ⟨i, f, b, ps, qs, ha, hw, hps, hqs, rfl⟩

/-- Every piece is in the face, and less than the size of the subdivision plus 16 wide along each axis. -/
theorem pieces_small (size : K) (hs : 0 < size) (fuel : Nat) (vs : List (Vec K)) (pieces : List (List (Vec K)))
    (h : subdivide size fuel vs = some (.ok pieces)) :
    ∀ p ∈ pieces, Within (size + 16) p ∧ ∀ u ∈ p, Inside vs u := by
  induction fuel generalizing vs pieces with
  | zero => cases h
  | succ fuel ih =>
    cases vs with
    | nil =>
      cases h
      intro p hp
      rw [List.mem_singleton] at hp
      subst hp
      exact ⟨fun a ha => (by cases ha), fun u hu => (by cases hu)⟩
    | cons v vs =>
      rcases subdivide_cut size fuel v vs pieces h with ⟨ha, rfl⟩ | ⟨i, f, b, ps, qs, ha, hw, hps, hqs, rfl⟩
      · intro p hp
        rw [List.mem_singleton] at hp
        subst hp
        refine ⟨within_of_coord _ _ ?_, fun u hu => inside_self _ _ hu⟩
        intro i a ha' b hb'
        have := narrow_width size hs i v vs ((axis_none size v vs).1 ha i)
        have h1 := (hi_spec i v vs).1 a ha'
        have h2 := (lo_spec i v vs).1 b hb'
        linarith
      · obtain ⟨hf, hb, -, -⟩ := cut_mem i _ v vs f b hw
        intro p hp
        rcases List.mem_append.1 hp with hp | hp
        · obtain ⟨h1, h2⟩ := ih f ps hps p hp
          exact ⟨h1, fun u hu => inside_trans (fun x hx => (hf x hx).1) (h2 u hu)⟩
        · obtain ⟨h1, h2⟩ := ih b qs hqs p hp
          exact ⟨h1, fun u hu => inside_trans (fun x hx => (hb x hx).1) (h2 u hu)⟩

/-- The pieces have the area of the face together. -/
theorem pieces_area (size : K) (fuel : Nat) (vs : List (Vec K)) (pieces : List (List (Vec K))) (n : Vec K) (D : K)
    (hpl : Planar n D vs) (h : subdivide size fuel vs = some (.ok pieces)) :
    (pieces.map (area2 n)).sum = area2 n vs := by
  induction fuel generalizing vs pieces with
  | zero => cases h
  | succ fuel ih =>
    cases vs with
    | nil =>
      cases h
      simp [area2]
    | cons v vs =>
      rcases subdivide_cut size fuel v vs pieces h with ⟨ha, rfl⟩ | ⟨i, f, b, ps, qs, ha, hw, hps, hqs, rfl⟩
      · simp
      · obtain ⟨hf, hb, -, -⟩ := cut_mem i _ v vs f b hw
        obtain ⟨h1, h2⟩ := axis_some size v vs i ha
        obtain ⟨p, hp, ep⟩ := (hi_spec i v vs).2
        obtain ⟨q, hq, eq⟩ := (lo_spec i v vs).2
        rw [List.map_append, List.sum_append,
          ih f ps (planar_of_inside hpl fun x hx => (hf x hx).1) hps,
          ih b qs (planar_of_inside hpl fun x hx => (hb x hx).1) hqs]
        refine cut_area i _ D n v vs f b hpl p q hp hq ?_ hw
        rw [← ep, ← eq]
        intro h
        linarith

/-- A face less than 16 wide along every axis stays as it is. -/
theorem small_face_kept (size : K) (fuel : Nat) (vs : List (Vec K)) (hl : vs.length ≤ 64) (hw : Within 16 vs) :
    subdivideSurface size (fuel + 1) vs = some (.ok [vs]) := by
  unfold subdivideSurface
  rw [if_neg (not_lt.2 hl)]
  cases vs with
  | nil => rfl
  | cons v vs =>
    unfold subdivide
    rw [if_neg (not_lt.2 hl)]
    have : axis size v vs = none := by
      rw [axis_none]
      intro i
      obtain ⟨p, hp, ep⟩ := (hi_spec i v vs).2
      obtain ⟨q, hq, eq⟩ := (lo_spec i v vs).2
      have hh : coord i p - coord i q < 16 := by
        obtain ⟨a, b, c⟩ := hw p hp q hq
        match i with
        | 0 => exact a
        | 1 => exact b
        | 2 => exact c
      rw [← ep, ← eq] at hh
      unfold narrow
      rw [Bool.or_eq_true, decide_eq_true_eq, decide_eq_true_eq]
      by_contra hc
      push Not at hc
      linarith [hc.1, hc.2]
    rw [this]

/-! ## It ends -/

/-- How often a polygon can be cut along an axis. -/
def room (i : Fin 3) : List (Vec K) → Nat
  | [] => 0
  | v :: vs => ⌊(hi i v vs - lo i v vs) / 8⌋.toNat

theorem coord_inside (i : Fin 3) (vs : List (Vec K)) (u : Vec K) (c : K) (h : Inside vs u) :
    ((∀ v ∈ vs, coord i v ≤ c) → coord i u ≤ c) ∧ ((∀ v ∈ vs, c ≤ coord i v) → c ≤ coord i u) := by
  have up : ∀ n : Vec K, (∀ v, dot n v = coord i v) → ((∀ v ∈ vs, coord i v ≤ c) → coord i u ≤ c) := by
    intro n hn hv
    have := h n c fun v hv' => by rw [hn]; exact hv v hv'
    rwa [hn] at this
  have down : ∀ n : Vec K, (∀ v, dot n v = -coord i v) → ((∀ v ∈ vs, c ≤ coord i v) → c ≤ coord i u) := by
    intro n hn hv
    have := h n (-c) fun v hv' => by rw [hn]; linarith [hv v hv']
    rw [hn] at this
    linarith
  match i with
  | 0 => exact ⟨up ⟨1, 0, 0⟩ fun v => by simp [dot, coord], down ⟨-1, 0, 0⟩ fun v => by simp [dot, coord]⟩
  | 1 => exact ⟨up ⟨0, 1, 0⟩ fun v => by simp [dot, coord], down ⟨0, -1, 0⟩ fun v => by simp [dot, coord]⟩
  | 2 => exact ⟨up ⟨0, 0, 1⟩ fun v => by simp [dot, coord], down ⟨0, 0, -1⟩ fun v => by simp [dot, coord]⟩

theorem room_le (i : Fin 3) (v : Vec K) (vs us : List (Vec K)) (c : K) (hc : 0 ≤ c)
    (h : ∀ a ∈ us, ∀ b ∈ us, coord i a - coord i b ≤ hi i v vs - lo i v vs - 8 * c) :
    (room i us : K) ≤ room i (v :: vs) - ⌊c⌋ ∨ us = [] := by
  cases us with
  | nil => exact Or.inr rfl
  | cons u us =>
    left
    obtain ⟨p, hp, ep⟩ := (hi_spec i u us).2
    obtain ⟨q, hq, eq⟩ := (lo_spec i u us).2
    have h1 := h p hp q hq
    have h0 : 0 ≤ hi i u us - lo i u us := by
      have := (hi_spec i u us).1 u List.mem_cons_self
      have := (lo_spec i u us).1 u List.mem_cons_self
      linarith
    rw [← ep, ← eq] at h1
    unfold room
    have a1 : 0 ≤ ⌊(hi i u us - lo i u us) / 8⌋ := Int.floor_nonneg.2 (by linarith)
    have a2 : 0 ≤ ⌊(hi i v vs - lo i v vs) / 8⌋ := Int.floor_nonneg.2 (by linarith)
    have a3 : ⌊(hi i u us - lo i u us) / 8⌋ + ⌊c⌋ ≤ ⌊(hi i v vs - lo i v vs) / 8⌋ := by
      rw [Int.le_floor]
      push_cast
      have b1 := Int.floor_le ((hi i u us - lo i u us) / 8)
      have b2 := Int.floor_le c
      linarith
    have e1 : ((⌊(hi i u us - lo i u us) / 8⌋.toNat : Nat) : K) = (⌊(hi i u us - lo i u us) / 8⌋ : K) := by
      rw [← Int.cast_natCast, Int.toNat_of_nonneg a1]
    have e2 : ((⌊(hi i v vs - lo i v vs) / 8⌋.toNat : Nat) : K) = (⌊(hi i v vs - lo i v vs) / 8⌋ : K) := by
      rw [← Int.cast_natCast, Int.toNat_of_nonneg a2]
    rw [e1, e2]
    have : ((⌊(hi i u us - lo i u us) / 8⌋ + ⌊c⌋ : Int) : K) ≤ (⌊(hi i v vs - lo i v vs) / 8⌋ : K) := by exact_mod_cast a3
    push_cast at this
    linarith

theorem room_lt (i j : Fin 3) (v : Vec K) (vs us : List (Vec K)) (hin : ∀ u ∈ us, Inside (v :: vs) u)
    (hj : ∀ a ∈ us, ∀ b ∈ us, coord j a - coord j b ≤ hi j v vs - lo j v vs - 8) :
    us = [] ∨ (room i us ≤ room i (v :: vs) ∧ room j us + 1 ≤ room j (v :: vs)) := by
  have hw : ∀ a ∈ us, ∀ b ∈ us, coord i a - coord i b ≤ hi i v vs - lo i v vs - 8 * 0 := by
    intro a ha b hb
    have h1 := (coord_inside i (v :: vs) a _ (hin a ha)).1 (hi_spec i v vs).1
    have h2 := (coord_inside i (v :: vs) b _ (hin b hb)).2 (lo_spec i v vs).1
    linarith
  rcases room_le i v vs us 0 le_rfl hw with h1 | h1
  · rcases room_le j v vs us 1 zero_le_one (by simpa using hj) with h2 | h2
    · right
      simp only [Int.floor_zero, Int.floor_one, Int.cast_zero, Int.cast_one, sub_zero] at h1 h2
      refine ⟨by exact_mod_cast h1, ?_⟩
      have : ((room j us + 1 : Nat) : K) ≤ (room j (v :: vs) : K) := by
        push_cast
        linarith
      exact_mod_cast this
    · exact Or.inl h2
  · exact Or.inl h1

/-- Subdividing ends. -/
theorem subdivide_ends (size : K) (vs : List (Vec K)) : ∃ fuel, (subdivideSurface size fuel vs).isSome = true := by
  have main : ∀ (fuel : Nat) (vs : List (Vec K)), room 0 vs + room 1 vs + room 2 vs < fuel →
      (subdivide size fuel vs).isSome = true := by
    intro fuel
    induction fuel with
    | zero => intro vs h; omega
    | succ fuel ih =>
      intro vs h
      cases vs with
      | nil => rfl
      | cons v vs =>
        unfold subdivide
        split
        · rfl
        · split
          · rfl
          · next i ha =>
            split
            · rfl
            · split
              · rfl
              · rfl
              · next f b hw =>
                obtain ⟨hf, hb, hf', hb'⟩ := cut_mem i _ v vs f b hw
                obtain ⟨h1, h2⟩ := axis_some size v vs i ha
                have small : ∀ us : List (Vec K), us ≠ [] → (∀ u ∈ us, Inside (v :: vs) u) →
                    (∀ a ∈ us, ∀ b ∈ us, coord i a - coord i b ≤ hi i v vs - lo i v vs - 8) →
                    room 0 us + room 1 us + room 2 us < fuel := by
                  intro us hne hin hw
                  have k := fun j => (room_lt j i v vs us hin hw).resolve_left hne
                  have k0 := k 0
                  have k1 := k 1
                  have k2 := k 2
                  match i with
                  | 0 => omega
                  | 1 => omega
                  | 2 => omega
                have kf : (subdivide size fuel f).isSome = true := by
                  apply ih
                  apply small
                  · obtain ⟨p, hp, ep⟩ := (hi_spec i v vs).2
                    intro h0
                    have := hf' p hp (by rw [← ep]; linarith)
                    rw [h0] at this
                    cases this
                  · exact fun u hu => (hf u hu).1
                  · intro a ha' b hb'
                    have h3 := (coord_inside i (v :: vs) a _ (hf a ha').1).1 (hi_spec i v vs).1
                    have h4 := (hf b hb').2
                    linarith
                have kb : (subdivide size fuel b).isSome = true := by
                  apply ih
                  apply small
                  · obtain ⟨p, hp, ep⟩ := (lo_spec i v vs).2
                    intro h0
                    have := hb' p hp (by rw [← ep]; linarith)
                    rw [h0] at this
                    cases this
                  · exact fun u hu => (hb u hu).1
                  · intro a ha' b' hb''
                    have h3 := (coord_inside i (v :: vs) b' _ (hb b' hb'').1).2 (lo_spec i v vs).1
                    have h4 := (hb a ha').2
                    linarith
                split
                · next hn => rw [hn] at kf; cases kf
                · rfl
                · rfl
                · split
                  · next hn => rw [hn] at kb; cases kb
                  · rfl
                  · rfl
                  · rfl
  refine ⟨room 0 vs + room 1 vs + room 2 vs + 1, ?_⟩
  unfold subdivideSurface
  split
  · rfl
  · exact main _ vs (by omega)

/-! ## Memory -/

/-- A face with 64 corners that has to be cut, or with more, is written past the end of an array. -/
theorem full_face_overflows (size : K) (hs : 0 < size) (fuel : Nat) (vs : List (Vec K))
    (h : vs.length > 64 ∨ (vs.length = 64 ∧ ¬ Within (size + 16) vs)) :
    subdivideSurface size (fuel + 1) vs = some .ub := by
  unfold subdivideSurface
  rcases h with h | ⟨h, hw⟩
  · rw [if_pos h]
  · rw [if_neg (by omega)]
    cases vs with
    | nil => cases h
    | cons v vs =>
      unfold subdivide
      rw [if_neg (by omega)]
      cases ha : axis size v vs with
      | none =>
        exfalso
        apply hw
        apply within_of_coord
        intro i a ha' b hb'
        have := narrow_width size hs i v vs ((axis_none size v vs).1 ha i)
        have h1 := (hi_spec i v vs).1 a ha'
        have h2 := (lo_spec i v vs).1 b hb'
        linarith
      | some i =>
        simp only
        rw [if_pos (by omega)]

omit [IsStrictOrderedRing K] [FloorRing K] in
theorem push_len {l : List (Vec K)} {v : Vec K} (hl : l.length ≤ 64) :
    push l v = .ub ∨ ∃ l', push l v = .ok l' ∧ l'.length ≤ 64 := by
  unfold push
  split
  · next h => exact Or.inr ⟨_, rfl, by simp; omega⟩
  · exact Or.inl rfl

omit [IsStrictOrderedRing K] [FloorRing K] in
theorem pushIf_len (c : Prop) [Decidable c] {l : List (Vec K)} {v : Vec K} (hl : l.length ≤ 64) :
    pushIf c l v = .ub ∨ ∃ l', pushIf c l v = .ok l' ∧ l'.length ≤ 64 := by
  unfold pushIf
  split
  · exact push_len hl
  · exact Or.inr ⟨l, rfl, hl⟩

omit [IsStrictOrderedRing K] [FloorRing K] in
theorem walk_len (i : Fin 3) (m : K) (l f b : List (Vec K)) (hf : f.length ≤ 64) (hb : b.length ≤ 64) :
    walk i m l f b = .ub ∨ ∃ f' b', walk i m l f b = .ok (f', b') ∧ f'.length ≤ 64 ∧ b'.length ≤ 64 := by
  induction l generalizing f b with
  | nil => exact Or.inr ⟨f, b, rfl, hf, hb⟩
  | cons v l ih =>
    cases l with
    | nil => exact Or.inr ⟨f, b, rfl, hf, hb⟩
    | cons v' l =>
      unfold walk
      simp only
      rcases pushIf_len (coord i v - m ≥ 0) (v := v) hf with h1 | ⟨f1, h1, hf1⟩
      · rw [h1]
        exact Or.inl rfl
      · rw [h1, Outcome.ok_bind]
        rcases pushIf_len (coord i v - m ≤ 0) (v := v) hb with h2 | ⟨b1, h2, hb1⟩
        · rw [h2]
          exact Or.inl rfl
        · rw [h2, Outcome.ok_bind]
          split
          · exact ih f1 b1 hf1 hb1
          · split
            · rcases push_len (v := crossing (coord i v - m) (coord i v' - m) v v') hf1 with h3 | ⟨f2, h3, hf2⟩
              · rw [h3]
                exact Or.inl rfl
              · rw [h3, Outcome.ok_bind]
                rcases push_len (v := crossing (coord i v - m) (coord i v' - m) v v') hb1 with h4 | ⟨b2, h4, hb2⟩
                · rw [h4]
                  exact Or.inl rfl
                · rw [h4, Outcome.ok_bind]
                  exact ih f2 b2 hf2 hb2
            · exact ih f1 b1 hf1 hb1

/-- The test for too many corners never fails: by then memory has been overwritten. -/
theorem corner_check_unused (size : K) (fuel : Nat) (vs : List (Vec K)) :
    subdivideSurface size fuel vs ≠ some .error := by
  have main : ∀ (fuel : Nat) (vs : List (Vec K)), vs.length ≤ 64 → subdivide size fuel vs ≠ some .error := by
    intro fuel
    induction fuel with
    | zero => intro vs _ h; cases h
    | succ fuel ih =>
      intro vs hl
      cases vs with
      | nil => intro h; cases h
      | cons v vs =>
        unfold subdivide
        rw [if_neg (by omega)]
        split
        · intro h; cases h
        · next i ha =>
          split
          · intro h; cases h
          · rcases walk_len i (middle size i v vs) (v :: vs ++ [v]) [] [] (by simp) (by simp) with hw | ⟨f, b, hw, hf, hb⟩
            · rw [hw]
              intro h; cases h
            · rw [hw]
              simp only
              have kf := ih f hf
              have kb := ih b hb
              split
              · intro h; cases h
              · intro h; cases h
              · next h => exact absurd h kf
              · split
                · intro h; cases h
                · intro h; cases h
                · next h => exact absurd h kb
                · intro h; cases h
  unfold subdivideSurface
  split
  · intro h; cases h
  · exact main fuel vs (by omega)

end Verif.SurfLights
