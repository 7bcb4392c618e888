import Verif.Suns.SunLemmas

/-!
C183: the suns that a sun with a penumbra is split into. C184: suns given by entities and by worldspawn keys.
-/

namespace Verif.Suns

open Verif.Geom Verif.Phong

/-- C183: with any random numbers, a sun becomes one sun, or `-sunsamples` suns where it has a penumbra. They share its
light equally, they look as it does, and all shine along unit vectors: the first in its own direction, the others off by
no more than the angle whose cosine is twice that of the penumbra less one.

Missing: that they are off by no more than the penumbra. This is false, see `sun_outside_penumbra`. -/
theorem sun_split_partial (cfg : Cfg) (hn : 0 < cfg.sunsamples) (r : ℕ → ℝ) (hr : Draws r) (fuel at' : ℕ) (light : ℝ)
    (hl : light ≠ 0) (k : Look) (dir : Vec ℝ) (hd : dir ≠ ⟨0, 0, 0⟩) (dev : ℝ) (h0 : 0 ≤ dev) (h180 : dev ≤ 180) :
    ∃ s suns last, setupSun (fuel + 1) cfg r at' light k dir dev = some (s :: suns, last) ∧
      (s :: suns).length = (if dev = 0 then 1 else cfg.sunsamples) ∧
      total (s :: suns) = light ∧ DirOf (shine s) dir ∧
      ∀ t ∈ s :: suns, Looks cfg k t ∧ t.light = light / (s :: suns).length ∧ dot (shine t) (shine t) = 1 ∧
        2 * Real.cos (dev * Real.pi / 180) - 1 ≤ dot (shine t) (shine s) := by
  obtain ⟨suns, h1, h2, h3, h4⟩ := setupSun_spec hr fuel cfg hn at' light k dir dev
  have hc := sunCount_pos hn dev
  have hc0 : (sunCount cfg dev : ℝ) ≠ 0 := Nat.cast_ne_zero.2 hc.ne'
  have hdir := normalize_dirOf hd
  obtain ⟨s, hs⟩ := addSun_length cfg (normalize dir) (div_ne_zero hl hc0) k
  rw [hs, List.singleton_append] at h1
  have hsm : s ∈ addSun cfg (normalize dir) (light / sunCount cfg dev) k := by rw [hs]; exact List.mem_singleton_self _
  obtain ⟨l1, l2, l3⟩ := addSun_looks hsm
  rw [normalize_unit hdir.1] at l3
  have hlen : (s :: suns).length = sunCount cfg dev := by
    rw [List.length_cons, h3 hl]
    omega
  refine ⟨s, suns, _, h1, hlen, ?_, by rw [l3]; exact hdir, ?_⟩
  · obtain ⟨suns', last', e1, e2⟩ := setupSun_total hr fuel cfg hn at' light k dir dev
    rw [h1] at e1
    simp only [Option.some.injEq, Prod.mk.injEq] at e1
    rw [e1.1]
    exact e2
  · have hrad : rad dev = dev * Real.pi / 180 := by unfold rad; ring
    have hpi : dev * Real.pi / 180 ≤ Real.pi := by
      have := Real.pi_pos
      rw [div_le_iff₀ (by norm_num)]
      nlinarith
    intro t ht
    rw [hlen]
    rcases List.mem_cons.1 ht with rfl | ht
    · refine ⟨l1, l2, by rw [l3]; exact hdir.1, ?_⟩
      rw [l3, hdir.1]
      have := Real.cos_le_one (dev * Real.pi / 180)
      linarith
    · obtain ⟨a, b, da, de, c1, c2, c3⟩ := h4 t ht
      refine ⟨a, b, by rw [c3]; exact turned_unit _ _ _, ?_⟩
      rw [c3, l3]
      rw [abs_rad h0, hrad] at c1 c2
      exact turned_near hdir.1 hpi c1 c2

/-- A sun with a penumbra of five degrees. -/
example : ∃ s suns last, setupSun 1 ⟨true, 64⟩ (fun n => 1 / (n + 1)) 0 200 ⟨⟨255, 255, 255⟩, 1, 0, 0, []⟩ ⟨0, 1, -1⟩ 5
      = some (s :: suns, last) ∧ (s :: suns).length = 64 ∧ total (s :: suns) = 200 := by
  obtain ⟨s, suns, last, h1, h2, h3, -⟩ := sun_split_partial ⟨true, 64⟩ (by norm_num) (fun n => 1 / (n + 1))
    (fun n => ⟨by positivity, by rw [div_le_one (by positivity)]; linarith [(Nat.cast_nonneg n : (0 : ℝ) ≤ n)]⟩) 0 0 200
    (by norm_num) ⟨⟨255, 255, 255⟩, 1, 0, 0, []⟩ ⟨0, 1, -1⟩ (by intro h; have := congrArg Vec.y h; norm_num at this) 5
    (by norm_num) (by norm_num)
  exact ⟨s, suns, last, h1, by rw [h2]; norm_num, h3⟩

/-- C183, against the code: the loop that is to keep the samples within the penumbra compares radians with degrees and
never draws again, so that a sun may be off by more than the penumbra. -/
theorem sun_outside_penumbra (cfg : Cfg) (hn : 2 ≤ cfg.sunsamples) : ∃ (r : ℕ → ℝ) (k : Look) (dir : Vec ℝ)
    (suns : List Sun) (last : ℕ), Draws r ∧ DirOf dir dir ∧
    (∀ fuel, setupSun (fuel + 1) cfg r 0 300 k dir 60 = some (suns, last)) ∧
    ∃ s ∈ suns, dot (shine s) dir < Real.cos (60 * Real.pi / 180) := by
  have hr : Draws fun _ => 1 := fun _ => ⟨zero_le_one, le_refl _⟩
  have hu : dot (⟨1, 0, 0⟩ : Vec ℝ) ⟨1, 0, 0⟩ = 1 := by simp [dot]
  have hcnt : sunCount cfg 60 = cfg.sunsamples := by unfold sunCount; rw [if_neg (by norm_num)]
  have hstep : ∀ fuel n at', ∃ suns, moreSuns (fuel + 1) cfg (fun _ => 1) ⟨1, 0, 0⟩ (rad 60) (60 * 60)
      (300 / cfg.sunsamples) ⟨⟨0, 0, 0⟩, 0, 0, 0, []⟩ n at' = some (suns, at' + 2 * n) ∧
      suns = (List.replicate n (addSun cfg (turned ⟨1, 0, 0⟩ (rad 60) (rad 60)) (300 / cfg.sunsamples)
        ⟨⟨0, 0, 0⟩, 0, 0, 0, []⟩)).flatten := by
    intro fuel n
    induction n with
    | zero => intro at'; exact ⟨[], rfl, rfl⟩
    | succ n ih =>
      intro at'
      obtain ⟨suns, e1, e2⟩ := ih (at' + 2)
      refine ⟨_, ?_, rfl⟩
      rw [moreSuns, drawAngles_first hr]
      simp only
      rw [e1, e2]
      have : ((1 : ℝ) * 2 - 1) * rad 60 = rad 60 := by ring
      rw [this, List.replicate_succ, List.flatten_cons]
      simp only [Option.some.injEq, Prod.mk.injEq, true_and]
      ring
  obtain ⟨suns0, e1, e2⟩ := hstep 0 (cfg.sunsamples - 1) 0
  refine ⟨fun _ => 1, ⟨⟨0, 0, 0⟩, 0, 0, 0, []⟩, ⟨1, 0, 0⟩, addSun cfg ⟨1, 0, 0⟩ (300 / cfg.sunsamples)
    ⟨⟨0, 0, 0⟩, 0, 0, 0, []⟩ ++ suns0, 0 + 2 * (cfg.sunsamples - 1), hr, ⟨hu, 1, one_pos, (one_smul' _).symm⟩, ?_, ?_⟩
  · intro fuel
    obtain ⟨suns1, f1, f2⟩ := hstep fuel (cfg.sunsamples - 1) 0
    unfold setupSun
    simp only
    rw [hcnt, if_neg (by omega), normalize_unit hu, f1, f2, ← e2]
  · have h300 : (300 : ℝ) / cfg.sunsamples ≠ 0 := by
      apply div_ne_zero (by norm_num)
      exact Nat.cast_ne_zero.2 (by omega)
    obtain ⟨s, hs⟩ := addSun_length cfg (turned ⟨1, 0, 0⟩ (rad 60) (rad 60)) h300 ⟨⟨0, 0, 0⟩, 0, 0, 0, []⟩
    refine ⟨s, List.mem_append_right _ ?_, ?_⟩
    · rw [e2, hs]
      have : cfg.sunsamples - 1 = (cfg.sunsamples - 2) + 1 := by omega
      rw [this, List.replicate_succ, List.flatten_cons]
      simp
    · have hsm : s ∈ addSun cfg (turned ⟨1, 0, 0⟩ (rad 60) (rad 60)) (300 / cfg.sunsamples)
          ⟨⟨0, 0, 0⟩, 0, 0, 0, []⟩ := by rw [hs]; exact List.mem_singleton_self _
      rw [(addSun_looks hsm).2.2, normalize_unit (turned_unit _ _ _)]
      have ha : atan2 0 1 = 0 := by
        unfold atan2
        exact Complex.arg_one
      have h60 : rad 60 = Real.pi / 3 := by unfold rad; ring
      have h60' : (60 : ℝ) * Real.pi / 180 = Real.pi / 3 := by ring
      have hs1 : Real.sqrt ((1 : ℝ) * 1 + 0 * 0) = 1 := by norm_num
      unfold turned dot
      simp only
      rw [hs1, ha, h60, h60', zero_add, Real.cos_pi_div_three]
      norm_num

/-- The suns of entities, one entity after the other. -/
theorem entitySuns_spec {r : ℕ → ℝ} (hr : Draws r) (fuel : ℕ) (cfg : Cfg) (hn : 0 < cfg.sunsamples)
    (place : EntData.Dict → Vec ℝ) (ls : List Lamp) (at' : ℕ) :
    ∃ suns last, entitySuns (fuel + 1) cfg place r at' ls
        = some (ls.map fun l => if isSun l then { l with light := 0 } else l, suns, last) ∧
      total suns = (ls.map fun l => if isSun l then l.light else 0).sum ∧
      ∀ l ∈ ls, isSun l → sunDir place l ≠ ⟨0, 0, 0⟩ → ∃ s ∈ suns, Looks cfg l.look s ∧ DirOf (shine s) (sunDir place l) := by
  induction ls generalizing at' with
  | nil => exact ⟨[], at', rfl, by simp [total], fun l h => by cases h⟩
  | cons l ls ih =>
    by_cases hs : isSun l
    · obtain ⟨suns1, e1, -, -, -⟩ := setupSun_spec hr fuel cfg hn at' l.light l.look (sunDir place l) l.deviance
      obtain ⟨suns1', last1', t1, t2⟩ := setupSun_total hr fuel cfg hn at' l.light l.look (sunDir place l) l.deviance
      obtain ⟨suns2, last, f1, f2, f3⟩ := ih (at' + 2 * (sunCount cfg l.deviance - 1))
      rw [e1] at t1
      simp only [Option.some.injEq, Prod.mk.injEq] at t1
      refine ⟨suns1' ++ suns2, last, ?_, ?_, ?_⟩
      · rw [entitySuns, if_pos hs, e1]
        simp only
        rw [f1, ← t1.1]
        simp only [List.map_cons, if_pos hs]
      · rw [total_append, t2, f2, List.map_cons, if_pos hs, List.sum_cons]
      · intro m hm hms hmd
        rcases List.mem_cons.1 hm with rfl | hm
        · have hl0 : m.light / sunCount cfg m.deviance ≠ 0 :=
            div_ne_zero hms.2.ne' (Nat.cast_ne_zero.2 (sunCount_pos hn _).ne')
          obtain ⟨s, hs'⟩ := addSun_length cfg (normalize (sunDir place m)) hl0 m.look
          have hsm : s ∈ addSun cfg (normalize (sunDir place m)) (m.light / sunCount cfg m.deviance) m.look := by
            rw [hs']; exact List.mem_singleton_self _
          obtain ⟨a, -, c⟩ := addSun_looks hsm
          have hdir := normalize_dirOf hmd
          rw [normalize_unit hdir.1] at c
          refine ⟨s, List.mem_append_left _ ?_, a, by rw [c]; exact hdir⟩
          rw [← t1.1]
          exact List.mem_append_left _ hsm
        · obtain ⟨s, a, b⟩ := f3 m hm hms hmd
          exact ⟨s, List.mem_append_right _ a, b⟩
    · obtain ⟨suns2, last, f1, f2, f3⟩ := ih at'
      refine ⟨suns2, last, ?_, ?_, ?_⟩
      · rw [entitySuns, if_neg hs, f1]
        simp only [List.map_cons, if_neg hs]
      · rw [f2, List.map_cons, if_neg hs, List.sum_cons, zero_add]
      · intro m hm hms hmd
        rcases List.mem_cons.1 hm with rfl | hm
        · exact absurd hms hs
        · exact f3 m hm hms hmd

/-- C184: with any random numbers, the light of all suns together is that of the sun entities and that of the two suns
of the worldspawn keys. The entities that are suns are switched off, no other entity is changed. -/
theorem suns_total (cfg : Cfg) (hn : 0 < cfg.sunsamples) (place : EntData.Dict → Vec ℝ) (r : ℕ → ℝ) (hr : Draws r)
    (fuel at' : ℕ) (ls : List Lamp) (sun sun2 : World) (dev : ℝ) :
    ∃ ls' suns last, setupSuns (fuel + 1) cfg place r at' ls sun sun2 dev = some (ls', suns, last) ∧
      total suns = (ls.map fun l => if l.sun = true ∧ l.light > 0 then l.light else 0).sum + sun.light + sun2.light ∧
      ls' = ls.map fun l => if l.sun = true ∧ l.light > 0 then { l with light := 0 } else l := by
  obtain ⟨suns, last, h1, h2, -⟩ := entitySuns_spec hr fuel cfg hn place ls at'
  obtain ⟨s1, l1, e1, e2⟩ := setupSun_total hr fuel cfg hn last sun.light sun.look sun.dir dev
  obtain ⟨s2, l2, f1, f2⟩ := setupSun_total hr fuel cfg hn l1 sun2.light sun2.look sun2.dir dev
  have hsum : (ls.map fun l => if l.sun = true ∧ l.light > 0 then l.light else 0)
      = ls.map fun l => if isSun l then l.light else 0 := by
    apply List.map_congr_left
    intro l _
    unfold isSun
    congr
  have hmap : (ls.map fun l : Lamp => if l.sun = true ∧ l.light > 0 then ({ l with light := 0 } : Lamp) else l)
      = ls.map fun l => if isSun l then { l with light := 0 } else l := by
    apply List.map_congr_left
    intro l _
    unfold isSun
    congr
  rw [hsum, hmap, ← h2]
  unfold setupSuns
  rw [h1]
  simp only
  rw [e1]
  simp only
  by_cases h0 : sun2.light ≠ 0
  · rw [if_pos h0, f1]
    refine ⟨_, _, _, rfl, ?_, rfl⟩
    rw [total_append, total_append, e2, f2]
  · rw [if_neg h0]
    have h0 := not_not.1 h0
    refine ⟨_, _, _, rfl, ?_, rfl⟩
    rw [total_append, e2, h0, add_zero]

/-- C184: a sun entity shines from its place towards its target; without target and angles towards the origin of the
map.

Missing: a sun whose direction is given by `mangle`, see `sun_mangle_misread`. -/
theorem sun_direction_partial (cfg : Cfg) (hn : 0 < cfg.sunsamples) (place : EntData.Dict → Vec ℝ) (r : ℕ → ℝ)
    (hr : Draws r) (fuel at' : ℕ) (ls : List Lamp) (sun sun2 : World) (dev : ℝ) (l : Lamp) (hl : l ∈ ls)
    (hs : l.sun = true ∧ l.light > 0) :
    ∃ ls' suns last, setupSuns (fuel + 1) cfg place r at' ls sun sun2 dev = some (ls', suns, last) ∧
      (∀ e, l.target = some e → place e ≠ l.origin →
        ∃ s ∈ suns, Looks cfg l.look s ∧ DirOf (shine s) (sub (place e) l.origin)) ∧
      (l.target = none → l.mangle = ⟨0, 0, 0⟩ → l.origin ≠ ⟨0, 0, 0⟩ →
        ∃ s ∈ suns, Looks cfg l.look s ∧ DirOf (shine s) (sub ⟨0, 0, 0⟩ l.origin)) := by
  obtain ⟨suns, last, h1, -, h3⟩ := entitySuns_spec hr fuel cfg hn place ls at'
  obtain ⟨s1, l1, e1, e2⟩ := setupSun_total hr fuel cfg hn last sun.light sun.look sun.dir dev
  obtain ⟨s2, l2, f1, f2⟩ := setupSun_total hr fuel cfg hn l1 sun2.light sun2.look sun2.dir dev
  have main : ∃ ls' all last', setupSuns (fuel + 1) cfg place r at' ls sun sun2 dev = some (ls', all, last') ∧
      ∀ s ∈ suns, s ∈ all := by
    unfold setupSuns
    rw [h1]
    simp only
    rw [e1]
    simp only
    by_cases h0 : sun2.light ≠ 0
    · rw [if_pos h0, f1]
      exact ⟨_, _, _, rfl, fun s h => List.mem_append_left _ (List.mem_append_left _ h)⟩
    · rw [if_neg h0]
      exact ⟨_, _, _, rfl, fun s h => List.mem_append_left _ h⟩
  obtain ⟨ls', all, last', m1, m2⟩ := main
  refine ⟨ls', all, last', m1, ?_, ?_⟩
  · intro e he hne
    have hd : sunDir place l = sub (place e) l.origin := by unfold sunDir; rw [he]
    have h0 : sunDir place l ≠ ⟨0, 0, 0⟩ := by
      rw [hd]
      intro h
      apply hne
      have hx := congrArg Vec.x h
      have hy := congrArg Vec.y h
      have hz := congrArg Vec.z h
      unfold sub at hx hy hz
      simp only at hx hy hz
      exact vec_ext (by linarith) (by linarith) (by linarith)
    obtain ⟨s, a, b, c⟩ := h3 l hl hs h0
    exact ⟨s, m2 s a, b, by rw [← hd]; exact c⟩
  · intro ht hm ho
    have hd : sunDir place l = sub ⟨0, 0, 0⟩ l.origin := by
      unfold sunDir
      rw [ht]
      simp only
      rw [hm, if_neg (by simp [dot])]
      unfold smul sub
      refine vec_ext ?_ ?_ ?_ <;> simp
    have h0 : sunDir place l ≠ ⟨0, 0, 0⟩ := by
      rw [hd]
      intro h
      apply ho
      have hx := congrArg Vec.x h
      have hy := congrArg Vec.y h
      have hz := congrArg Vec.z h
      unfold sub at hx hy hz
      simp only at hx hy hz
      exact vec_ext (by linarith) (by linarith) (by linarith)
    obtain ⟨s, a, b, c⟩ := h3 l hl hs h0
    exact ⟨s, m2 s a, b, by rw [← hd]; exact c⟩

/-- A lamp with the usual keys. -/
noncomputable def plain : Lamp :=
  { light := 300, origin := ⟨0, 0, 64⟩, mangle := ⟨0, 0, 0⟩, deviance := 0, samples := 1, sun := true,
    sunlight2 := false, sunlight3 := false, look := ⟨⟨255, 255, 255⟩, 1, 0, 0, []⟩, nonudge := false, mask := 1,
    shadowMask := 1, pairs := [], target := none, generated := false }

/-- A sun above the origin shines down. -/
example : ∃ ls' suns last, setupSuns 1 ⟨false, 64⟩ (fun _ => ⟨0, 0, 0⟩) (fun _ => 0) 0 [plain] ⟨0, plain.look, ⟨0, 0, -1⟩⟩
      ⟨0, plain.look, ⟨0, 0, -1⟩⟩ 0 = some (ls', suns, last) ∧
      ∃ s ∈ suns, Looks ⟨false, 64⟩ plain.look s ∧ DirOf (shine s) (sub ⟨0, 0, 0⟩ ⟨0, 0, 64⟩) := by
  obtain ⟨a, b, c, d, -, e⟩ := sun_direction_partial ⟨false, 64⟩ (by norm_num) (fun _ => ⟨0, 0, 0⟩) (fun _ => 0)
    (fun _ => ⟨le_refl _, zero_le_one⟩) 0 0 [plain] ⟨0, plain.look, ⟨0, 0, -1⟩⟩ ⟨0, plain.look, ⟨0, 0, -1⟩⟩ 0 plain
    (by simp) ⟨rfl, by norm_num [plain]⟩
  exact ⟨a, b, c, d, e rfl rfl (by intro h; have := congrArg Vec.z h; norm_num [plain] at this)⟩

/-- C184, against the code: the angles of a sun entity's `mangle` are taken for a direction. With yaw 0 and pitch -90
the same key of worldspawn gives a sun that shines down; the entity gives one that shines along the y axis. -/
theorem sun_mangle_misread : ∃ (l : Lamp), isSun l ∧ l.mangle = ⟨0, -90, 0⟩ ∧ l.target = none ∧
    vecFromMangle ⟨0, -90, 0⟩ = ⟨0, 0, -1⟩ ∧
    ∀ (cfg : Cfg) (place : EntData.Dict → Vec ℝ) (r : ℕ → ℝ) (fuel at' : ℕ),
      ∃ s, entitySuns (fuel + 1) cfg place r at' [l] = some ([{ l with light := 0 }], [s], at') ∧
        shine s = ⟨0, -1, 0⟩ := by
  have hs : isSun { plain with mangle := ⟨0, -90, 0⟩ } := ⟨rfl, by norm_num [plain]⟩
  refine ⟨{ plain with mangle := ⟨0, -90, 0⟩ }, hs, rfl, rfl, ?_, ?_⟩
  · unfold vecFromMangle
    have h1 : -((-90 : ℝ) * (Real.pi / 180)) = Real.pi / 2 := by ring
    simp only [h1, zero_mul, Real.cos_zero, Real.sin_zero, Real.cos_pi_div_two, Real.sin_pi_div_two, mul_zero]
  · intro cfg place r fuel at'
    have hd : sunDir place { plain with mangle := ⟨0, -90, 0⟩ } = ⟨0, -90, 0⟩ := by
      unfold sunDir
      simp only [plain]
      rw [if_pos (by norm_num [dot])]
    have hl : realOps.len ⟨0, -90, 0⟩ = 90 := by
      have : realOps.len ⟨0, -90, 0⟩ = Real.sqrt (dot (⟨0, -90, 0⟩ : Vec ℝ) ⟨0, -90, 0⟩) := rfl
      rw [this]
      have : dot (⟨0, -90, 0⟩ : Vec ℝ) ⟨0, -90, 0⟩ = 90 * 90 := by norm_num [dot]
      rw [this, Real.sqrt_mul_self (by norm_num)]
    have hnn : normalize ⟨0, -90, 0⟩ = ⟨0, -1, 0⟩ := by
      unfold normalize
      rw [hl, if_neg (by norm_num)]
      unfold smul
      refine vec_ext ?_ ?_ ?_ <;> norm_num
    have hcnt : sunCount cfg 0 = 1 := by unfold sunCount; rw [if_pos rfl]
    obtain ⟨s, hsn⟩ := addSun_length cfg ⟨0, -1, 0⟩ (light := 300 / (1 : ℕ)) (by norm_num) plain.look
    refine ⟨s, ?_, ?_⟩
    · have hset : setupSun (fuel + 1) cfg r at' 300 plain.look ⟨0, -90, 0⟩ 0 = some ([s], at') := by
        unfold setupSun
        simp only
        rw [hcnt, if_neg one_ne_zero, hnn]
        simp only [moreSuns, Nat.sub_self]
        rw [hsn]
        rfl
      rw [entitySuns, if_pos hs]
      rw [hd]
      have : setupSun (fuel + 1) cfg r at' ({ plain with mangle := ⟨0, -90, 0⟩ } : Lamp).light
          ({ plain with mangle := ⟨0, -90, 0⟩ } : Lamp).look ⟨0, -90, 0⟩
          ({ plain with mangle := ⟨0, -90, 0⟩ } : Lamp).deviance = some ([s], at') := hset
      rw [this]
      rfl
    · have hsm : s ∈ addSun cfg ⟨0, -1, 0⟩ (300 / (1 : ℕ)) plain.look := by rw [hsn]; exact List.mem_singleton_self _
      rw [(addSun_looks hsm).2.2, normalize_unit (by norm_num [dot])]

/-- C184: the light of a sun entity that is linear or has no deviance is that of its key, and 300 without the key.

Missing: other entities, see `sun_light_divided`. -/
theorem sun_light_partial (cfg : Cfg) (hn : 0 < cfg.sunsamples) (place : EntData.Dict → Vec ℝ) (r : ℕ → ℝ) (hr : Draws r)
    (fuel at' : ℕ) (global : ℝ) (addmin : Bool) (raw : Illum.Raw) (l : Lamp) (hs : l.sun = true)
    (hk : raw.lightSet = true → raw.base.light > 0) (hf : raw.base.formula = .linear ∨ raw.deviance ≤ 0) :
    ∃ ls' suns last, entitySuns (fuel + 1) cfg place r at' [readLamp global addmin raw l] = some (ls', suns, last) ∧
      total suns = if raw.lightSet then raw.base.light else 300 := by
  obtain ⟨suns, last, h1, h2, -⟩ := entitySuns_spec hr fuel cfg hn place [readLamp global addmin raw l] at'
  have hlight : (readLamp global addmin raw l).light = if raw.lightSet then raw.base.light else 300 := by
    unfold readLamp Illum.checkFields
    simp only
    rcases hf with hf | hf
    · rw [hf, if_neg (by simp [Illum.divides])]
    · have hj : Illum.jitter raw.deviance raw.samples = 1 := by
        unfold Illum.jitter
        simp only
        rw [if_pos (Or.inl hf)]
      rw [hj]
      simp
  have hpos : (readLamp global addmin raw l).light > 0 := by
    rw [hlight]
    split
    · next h => exact hk h
    · norm_num
  have hsun : isSun (readLamp global addmin raw l) := ⟨hs, hpos⟩
  refine ⟨_, _, _, h1, ?_⟩
  rw [h2]
  simp only [List.map_cons, List.map_nil, if_pos hsun, List.sum_cons, List.sum_nil, add_zero]
  exact hlight

/-- The keys of a light with the values given. -/
noncomputable def keys (light : ℝ) (f : Illum.Formula) (deviance : ℝ) : Illum.Raw :=
  { base :=
      { light := light, atten := 1, formula := f, falloff := 0, anglescale := 1, bleed := false, origin := ⟨0, 0, 64⟩,
        color := ⟨255, 255, 255⟩, spot := none, proj := none, dirt := 0, dirtscale := 0, dirtgain := 0,
        onRadius := none, offRadius := none, mask := 1 }
    lightSet := true
    deviance := deviance
    samples := 16 }

/-- A linear sun with deviance. -/
example : ∃ ls' suns last, entitySuns 1 ⟨false, 64⟩ (fun _ => ⟨0, 0, 0⟩) (fun _ => 0) 0
      [readLamp 1 false (keys 200 .linear 5) plain] = some (ls', suns, last) ∧ total suns = 200 :=
  sun_light_partial ⟨false, 64⟩ (by norm_num) (fun _ => ⟨0, 0, 0⟩) (fun _ => 0) (fun _ => ⟨le_refl _, zero_le_one⟩) 0 0 1
    false (keys 200 .linear 5) plain rfl (fun _ => by norm_num [keys]) (Or.inl rfl)

/-- C184, against the code: the light of a sun entity with deviance and another formula is divided by `_samples`, as if
it were a light that is jittered, although it is not jittered. -/
theorem sun_light_divided (cfg : Cfg) (hn : 0 < cfg.sunsamples) (place : EntData.Dict → Vec ℝ) (r : ℕ → ℝ) (hr : Draws r)
    (fuel at' : ℕ) : ∃ (raw : Illum.Raw) (l : Lamp), l.sun = true ∧ raw.lightSet = true ∧ raw.base.light = 320 ∧
    ∃ ls' suns last, entitySuns (fuel + 1) cfg place r at' [readLamp 1 false raw l] = some (ls', suns, last) ∧
      total suns = 20 := by
  refine ⟨keys 320 .inverse 5, plain, rfl, rfl, rfl, ?_⟩
  obtain ⟨suns, last, h1, h2, -⟩ := entitySuns_spec hr fuel cfg hn place [readLamp 1 false (keys 320 .inverse 5) plain] at'
  have hlight : (readLamp 1 false (keys 320 .inverse 5) plain).light = 20 := by
    unfold readLamp Illum.checkFields Illum.jitter keys
    norm_num [Illum.divides]
  have hsun : isSun (readLamp 1 false (keys 320 .inverse 5) plain) := ⟨rfl, by rw [hlight]; norm_num⟩
  refine ⟨_, _, _, h1, ?_⟩
  rw [h2]
  simp only [List.map_cons, List.map_nil, if_pos hsun, List.sum_cons, List.sum_nil, add_zero]
  exact hlight

end Verif.Suns
