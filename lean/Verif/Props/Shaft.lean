import Verif.Fluid.Shaft
import Verif.Props.Fan

/-!
# C74 Drive shafts, gas turbines and displacement pumps
-/

namespace Gunns.Props

open Gunns.Shafts Gunns.Fans Gunns.FluidValve
open Gunns.Interp (limitRange)

private theorem epos : (0 : ℝ) < dblEps := dblEps_pos
private theorem fpos : (0 : ℝ) < fltEps := by unfold fltEps; positivity
private theorem e_lt_f : (dblEps : ℝ) < fltEps := by unfold dblEps fltEps; norm_num
private theorem kpos : (0 : ℝ) < secPerMinPer2Pi := by unfold secPerMinPer2Pi; positivity

/-! ### Drive shaft -/

/-- What a shaft is accepted with. -/
theorem c74_shaft_accepted (c : ShaftConfig) (j : ℝ) :
    c.valid j = true ↔ 0 ≤ c.frictionConstant ∧ 0 ≤ c.frictionMinSpeed ∧ dblEps < c.inertia ∧ 0 ≤ j := by
  unfold ShaftConfig.valid
  simp only [Bool.and_eq_true, decide_eq_true_eq, not_lt, not_le, and_assoc]

private theorem foldl_sum (l : List ℝ) (a : ℝ) : l.foldl (· + ·) a = a + l.sum := by
  induction l generalizing a with
  | nil => simp
  | cons x l ih => rw [List.foldl_cons, ih, List.sum_cons]; ring

/-- The load is the sum of all torques, of turbines and fans; the jam malfunction takes a fraction of it. -/
theorem c74_load (m : ShaftMalf) (s : Shaft) (turbines fans : List ℝ) :
    (s.postSolver m turbines fans).load = (1 - m.jam.getD 0) * (turbines.sum + fans.sum) ∧
    (s.postSolver m turbines fans).speed = s.speed := by
  refine ⟨?_, rfl⟩
  unfold Shaft.postSolver
  dsimp only
  rw [foldl_sum, foldl_sum]
  cases m.jam
  · simp
  · simp; ring

/-- The speed is that of the override, or it is at least DBL_EPSILON; then the angular momentum changes by the impulse of the load and of
the friction, or the shaft has stopped. -/
theorem c74_speed (c : ShaftConfig) (hI : 0 < c.inertia) (m : ShaftMalf) (s : Shaft) (dt : ℝ) :
    let r := s.preSolver c m dt
    r.friction = -c.frictionConstant * max s.speed c.frictionMinSpeed ∧ r.load = s.load ∧
    (∀ v, m.override = some v → r.speed = v) ∧
    (m.override = none → dblEps ≤ r.speed ∧
      c.inertia * ((r.speed - s.speed) * (2 * Real.pi) / 60) ≥ (s.load + r.friction) * dt ∧
      (dblEps < r.speed → c.inertia * ((r.speed - s.speed) * (2 * Real.pi) / 60) = (s.load + r.friction) * dt)) := by
  intro r
  refine ⟨rfl, rfl, ?_, ?_⟩
  · intro v hv
    show m.override.getD _ = v
    rw [hv]; rfl
  · intro ho
    obtain ⟨F, hF⟩ : ∃ F, F = (s.load + r.friction) * dt := ⟨_, rfl⟩
    have hr : r.speed = max (s.speed + F * secPerMinPer2Pi / c.inertia) dblEps := by
      rw [hF]
      show m.override.getD _ = _
      rw [ho]; rfl
    have key : c.inertia * (F * secPerMinPer2Pi / c.inertia * (2 * Real.pi) / 60) = F := by
      unfold secPerMinPer2Pi
      have := Real.pi_pos
      field_simp
    rw [← hF]
    have hp : (0 : ℝ) ≤ c.inertia * (2 * Real.pi) / 60 := by have := Real.pi_pos; positivity
    refine ⟨by rw [hr]; exact le_max_right _ _, ?_, ?_⟩
    · have h1 : F * secPerMinPer2Pi / c.inertia ≤ r.speed - s.speed := by
        rw [hr]; linarith [le_max_left (s.speed + F * secPerMinPer2Pi / c.inertia) dblEps]
      have := mul_le_mul_of_nonneg_left h1 hp
      show F ≤ _
      calc F = c.inertia * (F * secPerMinPer2Pi / c.inertia * (2 * Real.pi) / 60) := key.symm
        _ = c.inertia * (2 * Real.pi) / 60 * (F * secPerMinPer2Pi / c.inertia) := by ring
        _ ≤ _ := this
        _ = _ := by ring
    · intro hlt
      have h1 : r.speed = s.speed + F * secPerMinPer2Pi / c.inertia := by
        rw [hr] at hlt ⊢
        rcases max_choice (s.speed + F * secPerMinPer2Pi / c.inertia) dblEps with h | h
        · exact h
        · rw [h] at hlt; exact absurd hlt (lt_irrefl _)
      rw [h1]
      convert key using 3
      ring

/-- A history of a shaft: the time steps and the torques of turbines and fans in each. -/
noncomputable def c74Run (c : ShaftConfig) (m : ShaftMalf) (s : Shaft) : List (ℝ × List ℝ × List ℝ) → Shaft
  | [] => s
  | (dt, turbines, fans) :: l => c74Run c m ((s.preSolver c m dt).postSolver m turbines fans) l

private theorem pre_speed (c : ShaftConfig) (m : ShaftMalf) (hm : m.override = none) (s : Shaft) (dt : ℝ) :
    (s.preSolver c m dt).speed =
      max (s.speed + (s.load + -c.frictionConstant * max s.speed c.frictionMinSpeed) * dt * secPerMinPer2Pi / c.inertia) dblEps := by
  show m.override.getD _ = _
  rw [hm]; rfl

/-- Under a constant torque the speed comes geometrically to where the friction holds it, from either side and without passing it, if the
steps are not longer than the time constant. -/
theorem c74_converges (c : ShaftConfig) (hc : 0 < c.frictionConstant) (hI : 0 < c.inertia) (L : ℝ)
    (hE : c.frictionMinSpeed ≤ L / c.frictionConstant) (hE' : dblEps ≤ L / c.frictionConstant)
    (l : List (ℝ × List ℝ × List ℝ)) (hl : ∀ f ∈ l, 0 ≤ f.1 ∧ f.1 * (c.frictionConstant * secPerMinPer2Pi / c.inertia) ≤ 1 ∧ f.2.1.sum + f.2.2.sum = L)
    (s : Shaft) (hs : c.frictionMinSpeed ≤ s.speed) (hs' : dblEps ≤ s.speed) (hL : s.load = L) :
    (c74Run c { jam := none, override := none } s l).speed - L / c.frictionConstant =
      (l.map (fun f => 1 - f.1 * (c.frictionConstant * secPerMinPer2Pi / c.inertia))).prod * (s.speed - L / c.frictionConstant) := by
  induction l generalizing s with
  | nil => simp [c74Run]
  | cons f l ih =>
    obtain ⟨dt, tu, fa⟩ := f
    obtain ⟨h0, h1, h2⟩ := hl _ List.mem_cons_self
    dsimp only at h0 h1 h2
    obtain ⟨E, hEe⟩ : ∃ E, E = L / c.frictionConstant := ⟨_, rfl⟩
    obtain ⟨a, ha⟩ : ∃ a, a = dt * (c.frictionConstant * secPerMinPer2Pi / c.inertia) := ⟨_, rfl⟩
    rw [← ha] at h1
    have ha0 : 0 ≤ a := by rw [ha]; have := kpos; positivity
    have hLE : L = c.frictionConstant * E := by rw [hEe]; field_simp
    have hsp : (s.preSolver c { jam := none, override := none } dt).speed = E + (1 - a) * (s.speed - E) := by
      rw [pre_speed c _ rfl, max_eq_left hs, hL, hLE]
      have e : s.speed + (c.frictionConstant * E + -c.frictionConstant * s.speed) * dt * secPerMinPer2Pi / c.inertia = E + (1 - a) * (s.speed - E) := by
        rw [ha]; ring
      rw [e, max_eq_left]
      rw [← hEe] at hE'
      nlinarith
    obtain ⟨s', hs1⟩ : ∃ s', s' = (s.preSolver c { jam := none, override := none } dt).postSolver { jam := none, override := none } tu fa := ⟨_, rfl⟩
    have hspeed : s'.speed = E + (1 - a) * (s.speed - E) := by rw [hs1, (c74_load _ _ _ _).2, hsp]
    have hload : s'.load = L := by rw [hs1, (c74_load _ _ _ _).1, h2]; simp
    rw [← hEe] at hE hE'
    have := ih (fun f hf => hl f (List.mem_cons_of_mem _ hf)) s' (by rw [hspeed]; nlinarith) (by rw [hspeed]; nlinarith) hload
    rw [← hEe] at this ⊢
    have hrun : c74Run c { jam := none, override := none } s ((dt, tu, fa) :: l) = c74Run c { jam := none, override := none } s' l := by rw [hs1]; rfl
    rw [hrun, this, hspeed, List.map_cons, List.prod_cons]
    dsimp only
    rw [← ha]; ring

/-- Without a driving torque the friction stops the shaft in a time known from its start, whatever brakes it besides. -/
theorem c74_stops (c : ShaftConfig) (hc : 0 ≤ c.frictionConstant) (hI : 0 < c.inertia) (m : ShaftMalf) (hm : m.override = none) (hj : m.jam = none)
    (hmin : 0 ≤ c.frictionMinSpeed) (l : List (ℝ × List ℝ × List ℝ)) (hl : ∀ f ∈ l, 0 ≤ f.1 ∧ f.2.1.sum + f.2.2.sum ≤ 0) (s : Shaft)
    (hL : s.load ≤ 0) :
    (c74Run c m s l).speed ≤
      max (s.speed - c.frictionConstant * c.frictionMinSpeed * secPerMinPer2Pi / c.inertia * (l.map (fun f => f.1)).sum) dblEps := by
  induction l generalizing s with
  | nil => simp [c74Run]
  | cons f l ih =>
    obtain ⟨dt, tu, fa⟩ := f
    obtain ⟨h0, h2⟩ := hl _ List.mem_cons_self
    dsimp only at h0 h2
    obtain ⟨s', hs1⟩ : ∃ s', s' = (s.preSolver c m dt).postSolver m tu fa := ⟨_, rfl⟩
    obtain ⟨q, hq⟩ : ∃ q, q = c.frictionConstant * c.frictionMinSpeed * secPerMinPer2Pi / c.inertia := ⟨_, rfl⟩
    have hq0 : 0 ≤ q := by rw [hq]; have := kpos; positivity
    have hload : s'.load ≤ 0 := by rw [hs1, (c74_load _ _ _ _).1, hj]; simpa using h2
    have hspeed : s'.speed ≤ max (s.speed - q * dt) dblEps := by
      rw [hs1, (c74_load _ _ _ _).2, pre_speed c m hm]
      apply max_le_max_right
      have hk := kpos
      have : (s.load + -c.frictionConstant * max s.speed c.frictionMinSpeed) * dt * secPerMinPer2Pi / c.inertia ≤
          (-(c.frictionConstant * c.frictionMinSpeed)) * dt * secPerMinPer2Pi / c.inertia := by
        apply div_le_div_of_nonneg_right _ hI.le
        apply mul_le_mul_of_nonneg_right _ hk.le
        apply mul_le_mul_of_nonneg_right _ h0
        have := mul_le_mul_of_nonneg_left (le_max_right s.speed c.frictionMinSpeed) hc
        linarith
      have e : (-(c.frictionConstant * c.frictionMinSpeed)) * dt * secPerMinPer2Pi / c.inertia = -(q * dt) := by rw [hq]; ring
      rw [e] at this; linarith
    have hih := ih (fun f hf => hl f (List.mem_cons_of_mem _ hf)) s' hload
    have hrun : c74Run c m s ((dt, tu, fa) :: l) = c74Run c m s' l := by rw [hs1]; rfl
    rw [hrun, ← hq]
    rw [← hq] at hih
    have hsum : 0 ≤ (l.map (fun f => f.1)).sum := by
      apply List.sum_nonneg
      intro x hx
      obtain ⟨f, hf, rfl⟩ := List.mem_map.mp hx
      exact (hl f (List.mem_cons_of_mem _ hf)).1
    have hqd : 0 ≤ q * dt := mul_nonneg hq0 h0
    have hqs : 0 ≤ q * (l.map (fun f => f.1)).sum := mul_nonneg hq0 hsum
    refine hih.trans (max_le ?_ (le_max_right _ _))
    rw [List.map_cons, List.sum_cons]
    dsimp only
    rcases le_max_iff.mp hspeed with h | h
    · refine le_trans ?_ (le_max_left _ _)
      linarith
    · refine le_trans ?_ (le_max_right _ _)
      linarith

/-- A shaft at rest moves exactly if its load is more than the friction at the minimum speed. -/
theorem c74_stiction (c : ShaftConfig) (hI : 0 < c.inertia) (m : ShaftMalf) (hm : m.override = none) (s : Shaft) {dt : ℝ} (hdt : 0 < dt)
    (hs : s.speed = dblEps) (hmin : dblEps ≤ c.frictionMinSpeed) :
    dblEps < (s.preSolver c m dt).speed ↔ c.frictionConstant * c.frictionMinSpeed < s.load := by
  rw [pre_speed c m hm, hs, max_eq_right hmin, lt_max_iff, or_iff_left (lt_irrefl _)]
  have hk := kpos
  have : (s.load + -c.frictionConstant * c.frictionMinSpeed) * dt * secPerMinPer2Pi / c.inertia =
    (s.load - c.frictionConstant * c.frictionMinSpeed) * (dt * secPerMinPer2Pi / c.inertia) := by ring
  rw [this]
  have hp : 0 < dt * secPerMinPer2Pi / c.inertia := by positivity
  constructor
  · intro h
    by_contra hn
    rw [not_lt] at hn
    have := mul_nonpos_of_nonpos_of_nonneg (sub_nonpos.mpr hn) hp.le
    linarith
  · intro h
    have := mul_pos (sub_pos.mpr h) hp
    linarith

/-- The kinetic energy of a shaft that turns grows by the work of the torques at the speed before the step, and an excess that is of the
second order of the step. -/
theorem c74_energy (c : ShaftConfig) (hI : 0 < c.inertia) (m : ShaftMalf) (hm : m.override = none) (s : Shaft) (dt : ℝ)
    (hr : dblEps < (s.preSolver c m dt).speed) :
    let w := fun v : ℝ => v * (2 * Real.pi) / 60
    let T := s.load + (s.preSolver c m dt).friction
    c.inertia / 2 * w (s.preSolver c m dt).speed ^ 2 - c.inertia / 2 * w s.speed ^ 2 = T * w s.speed * dt + (T * dt) ^ 2 / (2 * c.inertia) := by
  intro w T
  have h := (((c74_speed c hI m s dt).2.2.2 hm).2.2 hr)
  obtain ⟨r, hre⟩ : ∃ r, r = (s.preSolver c m dt).speed := ⟨_, rfl⟩
  rw [← hre] at h ⊢
  have hT : T * dt = c.inertia * (w r - w s.speed) := by
    show (s.load + (s.preSolver c m dt).friction) * dt = _
    rw [← h]
    show _ = c.inertia * (r * (2 * Real.pi) / 60 - s.speed * (2 * Real.pi) / 60)
    ring
  have e : T * w s.speed * dt = T * dt * w s.speed := by ring
  rw [e, hT]
  field_simp
  ring

/-- The jam malfunction takes away load, not speed: a shaft without friction that is jammed fully turns on for ever, whatever brakes it. -/
theorem c74_jam_spins (c : ShaftConfig) (h : c.frictionConstant = 0) (l : List (ℝ × List ℝ × List ℝ)) (s : Shaft) (hs : dblEps ≤ s.speed)
    (hL : s.load = 0) : (c74Run c { jam := some 1, override := none } s l).speed = s.speed := by
  induction l generalizing s with
  | nil => rfl
  | cons f l ih =>
    obtain ⟨dt, tu, fa⟩ := f
    have h1 : (s.preSolver c { jam := some 1, override := none } dt).speed = s.speed := by
      rw [pre_speed c _ rfl, h, hL]
      simp [hs]
    have hrun : c74Run c { jam := some 1, override := none } s ((dt, tu, fa) :: l) = c74Run c { jam := some 1, override := none }
      ((s.preSolver c { jam := some 1, override := none } dt).postSolver { jam := some 1, override := none } tu fa) l := rfl
    rw [hrun, ih]
    · rw [(c74_load _ _ _ _).2, h1]
    · rw [(c74_load _ _ _ _).2, h1]; exact hs
    · rw [(c74_load _ _ _ _).1]; simp

/-- And it takes away braking load as well: a braked shaft that gets jammed is braked less, and driven if the value is above one. -/
theorem c74_jam_drives (s : Shaft) (turbines fans : List ℝ) (h : turbines.sum + fans.sum < 0) {v : ℝ} (hv : 0 < v) :
    (s.postSolver { jam := none, override := none } turbines fans).load < (s.postSolver { jam := some v, override := none } turbines fans).load ∧
    (1 < v → 0 < (s.postSolver { jam := some v, override := none } turbines fans).load) := by
  rw [(c74_load _ _ _ _).1, (c74_load _ _ _ _).1]
  simp only [Option.getD_none, Option.getD_some, sub_zero, one_mul]
  constructor
  · nlinarith
  · intro h1; nlinarith

/-- Steps longer than twice the time constant: the speed does not come to where the friction holds it, but swings for ever between a stop
and almost four times that. -/
theorem c74_swings : ∃ c : ShaftConfig, c.valid 0 = true ∧ c.frictionConstant = 1 ∧ ∃ s : Shaft, s.load = 1 ∧ ∀ n,
    (c74Run c { jam := none, override := none } s (List.replicate (2 * n) (1, [1], []))).speed = dblEps ∧
    (c74Run c { jam := none, override := none } s (List.replicate (2 * n + 1) (1, [1], []))).speed = 4 - 3 * dblEps := by
  have hk : (1 : ℝ) < secPerMinPer2Pi := by
    unfold secPerMinPer2Pi
    rw [one_lt_div (by have := Real.pi_pos; positivity)]
    linarith [Real.pi_lt_four]
  have he : (dblEps : ℝ) < 1 / 4 := by unfold dblEps; norm_num
  obtain ⟨c, hc⟩ : ∃ c : ShaftConfig, c = ⟨1, 0, secPerMinPer2Pi / 4⟩ := ⟨_, rfl⟩
  have hfc : c.frictionConstant = 1 := by rw [hc]
  obtain ⟨m, hm⟩ : ∃ m : ShaftMalf, m = ⟨none, none⟩ := ⟨_, rfl⟩
  have hpre : ∀ s : Shaft, s.load = 1 → 0 ≤ s.speed → (s.preSolver c m 1).speed = max (4 - 3 * s.speed) dblEps := by
    intro s hs h0
    rw [pre_speed c m (by rw [hm]), hs, hc]
    dsimp only
    rw [max_eq_left h0]
    congr 1
    have : secPerMinPer2Pi ≠ 0 := by linarith
    field_simp
    ring
  refine ⟨c, (c74_shaft_accepted _ _).mpr ⟨by rw [hc]; norm_num, by rw [hc], by rw [hc]; show dblEps < secPerMinPer2Pi / 4; linarith, le_refl _⟩,
    hfc, ⟨dblEps, 0, 1⟩, rfl, ?_⟩
  rw [← hm]
  have step : ∀ (s : Shaft) n, c74Run c m s (List.replicate (n + 1) (1, [1], [])) =
      c74Run c m ((s.preSolver c m 1).postSolver m [1] []) (List.replicate n (1, [1], [])) := fun s n => rfl
  have hload : ∀ s : Shaft, (s.postSolver m [1] []).load = 1 := by
    intro s
    rw [(c74_load _ _ _ _).1, hm]; simp
  have key : ∀ n (s : Shaft), s.load = 1 → s.speed = dblEps →
      (c74Run c m s (List.replicate (2 * n) (1, [1], []))).speed = dblEps ∧
      (c74Run c m s (List.replicate (2 * n + 1) (1, [1], []))).speed = 4 - 3 * dblEps := by
    intro n
    have hep := epos
    induction n with
    | zero =>
      intro s h1 h2
      refine ⟨h2, ?_⟩
      rw [step]
      show ((s.preSolver c m 1).postSolver m [1] []).speed = _
      rw [(c74_load _ _ _ _).2, hpre s h1 (by rw [h2]; exact hep.le), h2, max_eq_left]
      linarith
    | succ n ih =>
      intro s h1 h2
      obtain ⟨s1, hs1⟩ : ∃ s1, s1 = (s.preSolver c m 1).postSolver m [1] [] := ⟨_, rfl⟩
      have hv1 : s1.speed = 4 - 3 * dblEps := by
        rw [hs1, (c74_load _ _ _ _).2, hpre s h1 (by rw [h2]; exact hep.le), h2, max_eq_left]
        linarith
      obtain ⟨s2, hs2⟩ : ∃ s2, s2 = (s1.preSolver c m 1).postSolver m [1] [] := ⟨_, rfl⟩
      have hv2 : s2.speed = dblEps := by
        rw [hs2, (c74_load _ _ _ _).2, hpre s1 (by rw [hs1]; exact hload _) (by rw [hv1]; linarith), hv1, max_eq_right]
        linarith
      have e1 : 2 * (n + 1) = 2 * n + 1 + 1 := by ring
      have e2 : 2 * (n + 1) + 1 = 2 * n + 1 + 1 + 1 := by ring
      rw [e1, step, ← hs1, step, ← hs2, step, ← hs1, step, ← hs2]
      exact ih s2 (by rw [hs2]; exact hload _) hv2
  intro n
  exact key n _ rfl rfl

/-! ### Gas turbine -/

private theorem lim_mem {a x b : ℝ} (h : a ≤ b) : a ≤ limitRange a x b ∧ limitRange a x b ≤ b := by
  unfold limitRange
  exact ⟨le_max_right _ _, max_le (min_le_right _ _) h⟩

/-- What a turbine is accepted with. -/
theorem c74_turbine_accepted (t : Turb) : t.valid = true ↔
    dblEps ≤ t.refPress ∧ dblEps ≤ t.refTemp ∧ dblEps ≤ t.driveRatio ∧ (dblEps ≤ t.flowLow ∧ dblEps ≤ t.flowHigh) ∧
    (dblEps ≤ t.speedLow ∧ dblEps ≤ t.speedHigh) ∧ dblEps ≤ |t.speedLow - t.speedHigh| ∧ (t.minHigh ≤ t.maxHigh ∧ t.minLow ≤ t.maxLow) ∧
    (dblEps ≤ t.minHigh ∧ dblEps ≤ t.minLow ∧ dblEps ≤ t.maxHigh ∧ dblEps ≤ t.maxLow) ∧ 0 ≤ t.motorSpeed := by
  unfold Turb.valid
  simp only [Bool.and_eq_true, decide_eq_true_eq, not_or, not_lt, and_assoc]

private theorem frac_mem (t : Turb) (h : t.speedLow < t.speedHigh) (temp : ℝ) : 0 ≤ t.frac temp ∧ t.frac temp ≤ 1 := by
  unfold Turb.frac
  have := lim_mem (x := t.impellerSpeed / (max dblEps temp / max dblEps t.refTemp)) h.le
  constructor
  · apply div_nonneg <;> linarith
  · rw [div_le_one (by linarith)]; linarith

private theorem interpolate_mem {a b x y f : ℝ} (h0 : 0 ≤ f) (h1 : f ≤ 1) (ha : a ≤ x) (ha' : a ≤ y) (hb : x ≤ b) (hb' : y ≤ b) :
    a ≤ interpolate x y f ∧ interpolate x y f ≤ b := by
  unfold interpolate
  constructor <;> nlinarith

/-- Between the corrected speeds of its map a turbine is on a blend of the two curves, at and below the low speed on the one, at and above
the high speed on the other. -/
theorem c74_blend (t : Turb) (h : t.speedLow < t.speedHigh) {temp : ℝ} (ht : dblEps ≤ temp) (hr : dblEps ≤ t.refTemp) (y1 y2 : ℝ) :
    0 ≤ t.frac temp ∧ t.frac temp ≤ 1 ∧
    (t.impellerSpeed * t.refTemp / temp ≤ t.speedLow → interpolate y1 y2 (t.frac temp) = y1) ∧
    (t.speedHigh ≤ t.impellerSpeed * t.refTemp / temp → interpolate y1 y2 (t.frac temp) = y2) ∧
    (t.speedLow ≤ t.impellerSpeed * t.refTemp / temp → t.impellerSpeed * t.refTemp / temp ≤ t.speedHigh →
      (interpolate y1 y2 (t.frac temp) - y1) * (t.speedHigh - t.speedLow) = (t.impellerSpeed * t.refTemp / temp - t.speedLow) * (y2 - y1)) := by
  have hep := epos
  have e : t.impellerSpeed / (max dblEps temp / max dblEps t.refTemp) = t.impellerSpeed * t.refTemp / temp := by
    rw [max_eq_right ht, max_eq_right hr, div_div_eq_mul_div]
  obtain ⟨x, hx⟩ : ∃ x, x = t.impellerSpeed * t.refTemp / temp := ⟨_, rfl⟩
  have hf : t.frac temp = (limitRange t.speedLow x t.speedHigh - t.speedLow) / (t.speedHigh - t.speedLow) := by
    unfold Turb.frac
    dsimp only
    rw [e, ← hx]
  have hd : t.speedHigh - t.speedLow ≠ 0 := by intro h0; linarith
  rw [← hx]
  refine ⟨(frac_mem t h temp).1, (frac_mem t h temp).2, ?_, ?_, ?_⟩
  · intro hl
    have : limitRange t.speedLow x t.speedHigh = t.speedLow := by
      unfold limitRange
      exact max_eq_right ((min_le_left _ _).trans hl)
    rw [hf, this]; unfold interpolate; simp
  · intro hl
    have : limitRange t.speedLow x t.speedHigh = t.speedHigh := by
      unfold limitRange
      rw [min_eq_right hl, max_eq_left h.le]
    rw [hf, this, div_self hd]; unfold interpolate; ring
  · intro h0 h1
    have : limitRange t.speedLow x t.speedHigh = x := by
      unfold limitRange
      rw [min_eq_left h1, max_eq_left h0]
    rw [hf, this]; unfold interpolate; field_simp; ring

private theorem flow_eq (t : Turb) {src : Fl} (hr : fltEps < src.rho) (temp delta : ℝ) :
    let m := t.computeFlowRate src temp delta
    let x := m.pressureRatio - 1
    m.pressureDrop = t.filterGain * delta + (1 - t.filterGain) * t.pressureDrop ∧
    m.pressureRatio = max 1 (max dblEps src.p / max dblEps (max dblEps src.p - m.pressureDrop)) ∧
    m.predicted = interpolate t.flowLow t.flowHigh (t.frac temp) * (x * x + interpolate t.rise1Low t.rise1High (t.frac temp) * x) /
      max dblEps (m.pressureRatio * m.pressureRatio + interpolate t.rise2Low t.rise2High (t.frac temp)) *
      (max dblEps src.p / max dblEps t.refPress / √(max dblEps temp / max dblEps t.refTemp)) := by
  have hc : max dblEps src.rho > fltEps := lt_max_of_lt_right hr
  intro m x
  have hm : m = t.computeFlowRate src temp delta := rfl
  unfold Turb.computeFlowRate at hm
  dsimp only at hm
  rw [if_pos hc] at hm
  refine ⟨?_, ?_, ?_⟩
  · rw [hm]
  · rw [hm]
  · show m.predicted = interpolate t.flowLow t.flowHigh (t.frac temp) * ((m.pressureRatio - 1) * (m.pressureRatio - 1) +
      interpolate t.rise1Low t.rise1High (t.frac temp) * (m.pressureRatio - 1)) / _ * _
    rw [hm]

private theorem map_bound {R c1 c2 : ℝ} (h : 1 ≤ R) (h0 : 0 ≤ c1) (h1 : c1 ≤ 2) (h2 : 0 ≤ c2) :
    1 ≤ R * R + c2 ∧ 0 ≤ (R - 1) * (R - 1) + c1 * (R - 1) ∧ (R - 1) * (R - 1) + c1 * (R - 1) ≤ R * R + c2 := by
  have a : 0 ≤ R - 1 := by linarith
  have b := mul_nonneg h0 a
  have c := mul_le_mul_of_nonneg_right h1 a
  have d := mul_nonneg a a
  have e : R * R = (R - 1) * (R - 1) + 2 * (R - 1) + 1 := by ring
  refine ⟨?_, ?_, ?_⟩ <;> linarith

private theorem map_mono {x y c1 c2 : ℝ} (hx0 : 0 ≤ x) (hxy : x ≤ y) (h0 : 0 ≤ c1) (h1 : c1 ≤ 2) (h2 : 0 ≤ c2) :
    (x * x + c1 * x) * ((y + 1) * (y + 1) + c2) ≤ (y * y + c1 * y) * ((x + 1) * (x + 1) + c2) := by
  have key : (y * y + c1 * y) * ((x + 1) * (x + 1) + c2) - (x * x + c1 * x) * ((y + 1) * (y + 1) + c2) =
      (y - x) * ((2 - c1) * (x * y) + (1 + c2) * (x + y) + c1 * (1 + c2)) := by ring
  have : 0 ≤ (y - x) * ((2 - c1) * (x * y) + (1 + c2) * (x + y) + c1 * (1 + c2)) := by
    apply mul_nonneg (by linarith)
    have g1 : 0 ≤ (2 - c1) * (x * y) := mul_nonneg (by linarith) (mul_nonneg hx0 (hx0.trans hxy))
    have g2 : 0 ≤ (1 + c2) * (x + y) := mul_nonneg (by linarith) (by linarith)
    have g3 : 0 ≤ c1 * (1 + c2) := mul_nonneg h0 (by linarith)
    linarith
  linarith

/-- A turbine's flow is not negative and never above the maximum flow of its map, corrected for pressure and temperature; the pressure ratio
is that of inlet and outlet.  There is none in vacuum. -/
theorem c74_map (t : Turb) (hv : t.valid = true) (h : t.speedLow < t.speedHigh) (h1 : 0 ≤ t.rise1Low ∧ t.rise1Low ≤ 2)
    (h2 : 0 ≤ t.rise1High ∧ t.rise1High ≤ 2) (h3 : 0 ≤ t.rise2Low) (h4 : 0 ≤ t.rise2High) (src : Fl) {temp : ℝ} (hT : dblEps ≤ temp)
    (hp : dblEps ≤ src.p) (delta : ℝ) :
    let m := t.computeFlowRate src temp delta
    0 ≤ m.predicted ∧
    m.predicted ≤ max t.flowLow t.flowHigh * (src.p / t.refPress / √(temp / t.refTemp)) ∧
    (src.rho ≤ fltEps → m.predicted = 0) ∧
    (fltEps < src.rho → t.filterGain = 1 → 0 ≤ delta → delta + dblEps ≤ src.p → m.pressureRatio * (src.p - delta) = src.p) := by
  obtain ⟨a1, a2, a3, ⟨a4, a5⟩, a6, a7, a8, a9, a10⟩ := (c74_turbine_accepted t).mp hv
  have hep := epos
  have hef := e_lt_f
  have hpp : 0 < src.p := by linarith
  have hrp : 0 < t.refPress := by linarith
  have hrT : 0 < t.refTemp := by linarith
  have hTT : 0 < temp := by linarith
  have hfac : 0 ≤ src.p / t.refPress / √(temp / t.refTemp) := by positivity
  intro m
  by_cases hr : fltEps < src.rho
  · obtain ⟨e1, e2, e3⟩ := flow_eq t hr temp delta
    obtain ⟨f0, f1⟩ := frac_mem t h temp
    change m.pressureDrop = _ at e1
    change m.pressureRatio = max 1 (max dblEps src.p / max dblEps (max dblEps src.p - m.pressureDrop)) at e2
    change m.predicted = interpolate t.flowLow t.flowHigh (t.frac temp) * ((m.pressureRatio - 1) * (m.pressureRatio - 1) +
      interpolate t.rise1Low t.rise1High (t.frac temp) * (m.pressureRatio - 1)) /
      max dblEps (m.pressureRatio * m.pressureRatio + interpolate t.rise2Low t.rise2High (t.frac temp)) * _ at e3
    rw [max_eq_right hp, max_eq_right a1, max_eq_right hT, max_eq_right a2] at e3
    rw [max_eq_right hp] at e2
    have b1 := interpolate_mem f0 f1 a4 a5 (le_max_left _ _) (le_max_right _ _)
    have b2 := interpolate_mem f0 f1 h1.1 h2.1 h1.2 h2.2
    have b3 := interpolate_mem f0 f1 h3 h4 (le_max_left _ _) (le_max_right _ _)
    have hr1 : 1 ≤ m.pressureRatio := by rw [e2]; exact le_max_left _ _
    obtain ⟨F, hF⟩ : ∃ F, F = interpolate t.flowLow t.flowHigh (t.frac temp) := ⟨_, rfl⟩
    obtain ⟨c1, hc1⟩ : ∃ F, F = interpolate t.rise1Low t.rise1High (t.frac temp) := ⟨_, rfl⟩
    obtain ⟨c2, hc2⟩ : ∃ F, F = interpolate t.rise2Low t.rise2High (t.frac temp) := ⟨_, rfl⟩
    obtain ⟨R, hR⟩ : ∃ R, R = m.pressureRatio := ⟨_, rfl⟩
    rw [← hF] at b1
    rw [← hc1] at b2
    rw [← hc2] at b3
    rw [← hF, ← hc1, ← hc2, ← hR] at e3
    rw [← hR] at hr1
    obtain ⟨hd1, hn0, h5⟩ := map_bound hr1 b2.1 b2.2 b3.1
    have hmx : max dblEps (R * R + c2) = R * R + c2 := max_eq_right (by have := dblEps_lt_one (K := ℝ); linarith)
    rw [hmx] at e3
    have hF0 : 0 ≤ F := by linarith [b1.1]
    refine ⟨?_, ?_, fun hn => absurd hr (not_lt.mpr hn), ?_⟩
    · rw [e3]
      apply mul_nonneg _ hfac
      apply div_nonneg (mul_nonneg hF0 hn0)
      linarith
    · rw [e3]
      apply mul_le_mul_of_nonneg_right _ hfac
      rw [div_le_iff₀ (by linarith)]
      exact mul_le_mul b1.2 h5 hn0 (hF0.trans b1.2)
    · intro _ hg hd hd2
      rw [hg] at e1
      have : m.pressureDrop = delta := by rw [e1]; ring
      rw [e2, this, max_eq_right (by linarith : dblEps ≤ src.p - delta), max_eq_right]
      · rw [div_mul_cancel₀]
        intro h0; linarith
      · rw [one_le_div (by linarith)]; linarith
  · have hm0 : m.predicted = 0 := by
      show (t.computeFlowRate src temp delta).predicted = 0
      unfold Turb.computeFlowRate
      dsimp only
      rw [if_neg]
      intro hgt
      rcases lt_max_iff.mp hgt with h' | h'
      · linarith
      · exact hr h'
    refine ⟨by rw [hm0], ?_, fun _ => hm0, fun h' => absurd h' hr⟩
    rw [hm0]
    apply mul_nonneg _ hfac
    exact le_trans (by linarith) (le_max_left t.flowLow t.flowHigh)

/-- More pressure drop never makes less flow. -/
theorem c74_monotone (t : Turb) (hv : t.valid = true) (h : t.speedLow < t.speedHigh) (h1 : 0 ≤ t.rise1Low ∧ t.rise1Low ≤ 2)
    (h2 : 0 ≤ t.rise1High ∧ t.rise1High ≤ 2) (h3 : 0 ≤ t.rise2Low) (h4 : 0 ≤ t.rise2High) (hg : 0 ≤ t.filterGain) (src : Fl)
    (temp : ℝ) {delta delta' : ℝ} (hd : delta ≤ delta') :
    (t.computeFlowRate src temp delta).predicted ≤ (t.computeFlowRate src temp delta').predicted := by
  obtain ⟨a1, a2, a3, ⟨a4, a5⟩, a6, a7, a8, a9, a10⟩ := (c74_turbine_accepted t).mp hv
  have hep := epos
  by_cases hr : fltEps < src.rho
  · obtain ⟨e1, e2, e3⟩ := flow_eq t hr temp delta
    obtain ⟨e1', e2', e3'⟩ := flow_eq t hr temp delta'
    obtain ⟨f0, f1⟩ := frac_mem t h temp
    have b1 := interpolate_mem f0 f1 a4 a5 (le_max_left _ _) (le_max_right _ _)
    have b2 := interpolate_mem f0 f1 h1.1 h2.1 h1.2 h2.2
    have b3 := interpolate_mem f0 f1 h3 h4 (le_max_left _ _) (le_max_right _ _)
    have hP : 0 < max dblEps src.p := lt_max_of_lt_left hep
    have hdrop : (t.computeFlowRate src temp delta).pressureDrop ≤ (t.computeFlowRate src temp delta').pressureDrop := by
      rw [e1, e1']
      have := mul_le_mul_of_nonneg_left hd hg
      linarith
    have hR : (t.computeFlowRate src temp delta).pressureRatio ≤ (t.computeFlowRate src temp delta').pressureRatio := by
      rw [e2, e2']
      apply max_le_max_left
      apply div_le_div_of_nonneg_left hP.le (lt_max_of_lt_left hep)
      apply max_le_max_left
      linarith
    have hR1 : 1 ≤ (t.computeFlowRate src temp delta).pressureRatio := by rw [e2]; exact le_max_left _ _
    rw [e3, e3']
    generalize (t.computeFlowRate src temp delta).pressureRatio = R at hR hR1
    generalize (t.computeFlowRate src temp delta').pressureRatio = R' at hR
    generalize interpolate t.flowLow t.flowHigh (t.frac temp) = F at b1
    generalize interpolate t.rise1Low t.rise1High (t.frac temp) = c1 at b2
    generalize interpolate t.rise2Low t.rise2High (t.frac temp) = c2 at b3
    apply mul_le_mul_of_nonneg_right _ (by positivity)
    have hlt := dblEps_lt_one (K := ℝ)
    have hd1 := (map_bound hR1 b2.1 b2.2 b3.1).1
    have hd2 := (map_bound (hR1.trans hR) b2.1 b2.2 b3.1).1
    rw [max_eq_right (by linarith : dblEps ≤ R * R + c2), max_eq_right (by linarith : dblEps ≤ R' * R' + c2),
      div_le_div_iff₀ (by linarith) (by linarith), mul_assoc, mul_assoc]
    apply mul_le_mul_of_nonneg_left _ (by linarith [b1.1])
    have := map_mono (x := R - 1) (y := R' - 1) (by linarith) (by linarith) b2.1 b2.2 b3.1
    rwa [sub_add_cancel, sub_add_cancel] at this
  · have hm0 : ∀ delta, (t.computeFlowRate src temp delta).predicted = 0 := by
      intro delta
      unfold Turb.computeFlowRate
      dsimp only
      rw [if_neg]
      intro hgt
      rcases lt_max_iff.mp hgt with h' | h'
      · linarith [e_lt_f]
      · exact hr h'
    rw [hm0, hm0]

private theorem build_matrix (d : Duct) : d.build.matrix 0 = d.sysCond := by
  unfold Duct.build
  split_ifs with h
  · rfl
  · have := abs_nonpos_iff.mp (not_lt.mp h)
    linarith

private theorem finish_off (d : Duct) (f0 f1 : Fl) (ht : d.tune = .off) (hb : d.block = false) :
    (d.finish f0 f1).matrix 0 = limitRange 0 (computeAdmittance d.effCond d.minLin f0 f1 d.exponent) conductanceLimit := by
  unfold Duct.finish
  dsimp only
  rw [build_matrix]
  unfold Duct.tuning
  rw [ht]
  dsimp only
  rw [hb]
  rfl

/-- The conductance of the turbine passes the predicted flow at the pressures it was predicted for. -/
theorem c74_delivers (t : Turb) (f0 f1 : Fl) (port : Bool) (temp delta : ℝ) (ht : t.duct.tune = .off) (hb : t.duct.block = false)
    (hx : t.duct.exponent = 1 / 2) (hp : dblEps < |f0.p - f1.p|) (hl : t.duct.minLin ≤ |f0.p - f1.p|) (hr : dblEps < c64rho f0 f1)
    (hw0 : dblEps < f0.mw) (hw1 : dblEps < f1.mw) :
    let m := t.step f0 f1 port temp delta
    0 ≤ m.predicted → m.predicted ≤ conductanceLimit * |f0.p - f1.p| * c64weight f0 f1 →
      m.duct.matrix 0 * |f0.p - f1.p| * c64weight f0 f1 = m.predicted := by
  intro m h0 hlim
  obtain ⟨u, hu⟩ : ∃ u, u = t.updateState f0 f1 port temp delta := ⟨_, rfl⟩
  have hmu : m = { u with duct := u.duct.finish f0 f1 } := by rw [hu]; rfl
  have hpm : m.predicted = u.predicted := by rw [hmu]
  have hduct : u.duct = { t.duct with effCond := if u.predicted ≥ 0 then predictConductivity u.predicted t.duct.minLin f0 f1 (1 / 2) else t.duct.maxCond } := by
    rw [hu]
    unfold Turb.updateState Turb.computeFlowRate
    dsimp only
    split_ifs <;> rfl
  rw [hpm] at h0 hlim ⊢
  rw [if_pos h0] at hduct
  have hmat : m.duct.matrix 0 = limitRange 0 (computeAdmittance (predictConductivity u.predicted t.duct.minLin f0 f1 (1 / 2)) t.duct.minLin f0 f1 (1 / 2))
      conductanceLimit := by
    rw [hmu]
    dsimp only
    rw [finish_off _ _ _ (by rw [hduct]; exact ht) (by rw [hduct]; exact hb), hduct]
    dsimp only
    rw [hx]
  have hrt := c64_round_trip u.predicted t.duct.minLin f0 f1 (1 / 2) hp hr hw0 hw1
  rw [max_eq_right hl, abs_of_nonneg h0] at hrt
  have hep := epos
  have hpos : 0 < |f0.p - f1.p| * c64weight f0 f1 := mul_pos (by linarith) (by unfold c64weight; linarith)
  obtain ⟨A, hA⟩ : ∃ A, A = computeAdmittance (predictConductivity u.predicted t.duct.minLin f0 f1 (1 / 2)) t.duct.minLin f0 f1 (1 / 2) := ⟨_, rfl⟩
  rw [← hA] at hrt hmat
  have hA0 : 0 ≤ A := by
    by_contra hn
    rw [not_le] at hn
    have := mul_neg_of_neg_of_pos hn hpos
    rw [mul_assoc] at hrt
    linarith
  have hAl : A ≤ conductanceLimit := by
    rw [← hrt, mul_assoc, mul_assoc] at hlim
    exact le_of_mul_le_mul_right hlim hpos
  rw [hmat]
  unfold limitRange
  rw [min_eq_left hAl, max_eq_left hA0, hrt]

/-- No gas flows back through a turbine: with no filtered pressure drop it conducts nothing. -/
theorem c74_no_backflow (t : Turb) (f0 f1 : Fl) (port : Bool) (temp delta : ℝ) (ht : t.duct.tune = .off)
    (hd : t.filterGain * delta + (1 - t.filterGain) * t.pressureDrop ≤ 0) :
    let m := t.step f0 f1 port temp delta
    m.predicted = 0 ∧ m.duct.matrix 0 = 0 := by
  intro m
  have hep := epos
  obtain ⟨t1, ht1⟩ : ∃ t1, t1 = (if t.driveRatio > dblEps then { t with impellerSpeed := t.motorSpeed / t.driveRatio } else t) := ⟨_, rfl⟩
  have hg : t1.filterGain = t.filterGain ∧ t1.pressureDrop = t.pressureDrop ∧ t1.duct = t.duct := by
    rw [ht1]; split_ifs <;> exact ⟨rfl, rfl, rfl⟩
  obtain ⟨u, hu⟩ : ∃ u, u = t1.computeFlowRate (if port then f1 else f0) temp delta := ⟨_, rfl⟩
  have hud : u.duct = t.duct := by
    rw [hu, ← hg.2.2]
    unfold Turb.computeFlowRate
    dsimp only
    split_ifs <;> rfl
  have hpu : u.predicted = 0 := by
    by_cases hr : fltEps < (if port then f1 else f0).rho
    · obtain ⟨e1, e2, e3⟩ := flow_eq t1 hr temp delta
      rw [← hu, hg.1, hg.2.1] at e1
      rw [← hu] at e2 e3
      have hR : u.pressureRatio = 1 := by
        rw [e2]
        apply max_eq_left
        have hP : 0 < max dblEps (if port then f1 else f0).p := lt_max_of_lt_left hep
        rw [div_le_one (lt_max_of_lt_left hep)]
        apply le_max_of_le_right
        rw [e1]; linarith
      rw [e3, hR]; simp
    · rw [hu]
      unfold Turb.computeFlowRate
      dsimp only
      rw [if_neg]
      intro hgt
      rcases lt_max_iff.mp hgt with h' | h'
      · linarith [e_lt_f]
      · exact hr h'
  have hm : m = { u with duct := Duct.finish { u.duct with effCond := if u.predicted ≥ 0 then predictConductivity u.predicted u.duct.minLin f0 f1 (1 / 2) else u.duct.maxCond } f0 f1 } := by
    rw [hu, ht1]; rfl
  refine ⟨by rw [hm]; exact hpu, ?_⟩
  rw [hm]
  dsimp only
  rw [hpu, if_pos (le_refl _), hud]
  have hz : predictConductivity 0 t.duct.minLin f0 f1 (1 / 2) = 0 := by
    unfold predictConductivity
    dsimp only
    split_ifs <;> simp
  rw [hz]
  have hc0 : ∀ b x, computeAdmittance 0 b f0 f1 x = 0 := by
    intro b x
    unfold computeAdmittance
    dsimp only
    split_ifs <;> simp
  unfold Duct.finish
  dsimp only
  rw [build_matrix]
  unfold Duct.tuning
  rw [ht]
  dsimp only
  by_cases hb : t.duct.block = true
  · rw [if_pos hb]
    dsimp only
    rw [zero_mul, hc0]
    unfold limitRange conductanceLimit
    rw [min_eq_left (by positivity), max_self]
  · rw [if_neg hb]
    dsimp only
    rw [hc0]
    unfold limitRange conductanceLimit
    rw [min_eq_left (by positivity), max_self]

/-- The efficiency is from 0 to 1, and 0 off its curve; a turbine with a pressure drop gives its shaft power, at most that of the gas, and
its torque is the one of that power; at rest it has none. -/
theorem c74_turbine_power (t : Turb) (temp : ℝ) :
    let m := t.updateFluid temp
    0 ≤ m.efficiency ∧ m.efficiency ≤ 1 ∧
    (t.pressureRatio < interpolate t.minLow t.minHigh (t.frac temp) ∨ interpolate t.maxLow t.maxHigh (t.frac temp) < t.pressureRatio → m.efficiency = 0) ∧
    (fltEps < t.motorSpeed → dblEps < t.driveRatio →
      m.torque * (t.motorSpeed * (2 * Real.pi) / 60) = -m.power ∧ -m.power = 1000 * |t.volFlow| * t.pressureDrop * m.efficiency) ∧
    (0 ≤ t.pressureDrop → m.power ≤ 0 ∧ 0 ≤ m.torque ∧ -m.power ≤ 1000 * |t.volFlow| * t.pressureDrop) ∧
    (t.motorSpeed ≤ fltEps → m.torque = 0 ∧ m.power = 0) := by
  intro m
  obtain ⟨E, hE⟩ : ∃ E, E = (if t.pressureRatio ≥ interpolate t.minLow t.minHigh (t.frac temp) ∧ t.pressureRatio ≤ interpolate t.maxLow t.maxHigh (t.frac temp) then
      limitRange 0 (curve (fun k => interpolate (t.effLow k) (t.effHigh k) (t.frac temp)) t.pressureRatio) 1
    else 0) := ⟨_, rfl⟩
  have hm : m = if t.motorSpeed > fltEps ∧ t.driveRatio > dblEps then
      { t with
        efficiency := E
        power := -1000 * |t.volFlow| * t.pressureDrop * E
        torque := -(-1000 * |t.volFlow| * t.pressureDrop * E) * secPerMinPer2Pi / t.motorSpeed }
    else
      { t with
        efficiency := E
        power := 0
        torque := 0 } := by rw [hE]; rfl
  have hme : m.efficiency = E := by rw [hm]; split_ifs <;> rfl
  have hE01 : 0 ≤ E ∧ E ≤ 1 := by
    rw [hE]
    split_ifs
    · exact lim_mem zero_le_one
    · exact ⟨le_refl _, zero_le_one⟩
  have hfp := fpos
  have hk := kpos
  refine ⟨by rw [hme]; exact hE01.1, by rw [hme]; exact hE01.2, ?_, ?_, ?_, ?_⟩
  · intro h
    rw [hme, hE, if_neg]
    rintro ⟨h1, h2⟩
    rcases h with h | h <;> linarith
  · intro h1 h2
    rw [hm, if_pos ⟨h1, h2⟩]
    dsimp only
    have hs : t.motorSpeed ≠ 0 := by linarith
    have := Real.pi_pos
    constructor
    · unfold secPerMinPer2Pi; field_simp
    · ring
  · intro hd
    have hq : 0 ≤ 1000 * |t.volFlow| * t.pressureDrop := by positivity
    have hqE : 0 ≤ 1000 * |t.volFlow| * t.pressureDrop * E := mul_nonneg hq hE01.1
    by_cases hc : t.motorSpeed > fltEps ∧ t.driveRatio > dblEps
    · rw [hm, if_pos hc]
      dsimp only
      have hpw : -1000 * |t.volFlow| * t.pressureDrop * E = -(1000 * |t.volFlow| * t.pressureDrop * E) := by ring
      rw [hpw]
      refine ⟨by linarith, ?_, ?_⟩
      · rw [neg_neg]
        exact div_nonneg (mul_nonneg hqE hk.le) (by linarith [hc.1])
      · rw [neg_neg]
        exact mul_le_of_le_one_right hq hE01.2
    · rw [hm, if_neg hc]
      dsimp only
      exact ⟨le_refl _, le_refl _, by simpa using hq⟩
  · intro h
    rw [hm, if_neg (fun hc => absurd hc.1 (not_lt.mpr h))]
    exact ⟨rfl, rfl⟩

/-- A shaft with turbines and fans in any states, through any history: in each step all get the speed of the shaft and return their torques. -/
noncomputable def c74Coupled (c : ShaftConfig) (m : ShaftMalf) (s : Shaft) : List (ℝ × List (Turb × ℝ) × List (Fan × ℝ)) → Shaft
  | [] => s
  | (dt, turbines, fans) :: l =>
    let r := s.preSolver c m dt
    c74Coupled c m (r.postSolver m (turbines.map (fun t => ({ t.1 with motorSpeed := r.speed }.updateFluid t.2).torque))
      (fans.map (fun f => ({ f.1 with motorSpeed := r.speed }.updatePower f.2).torque))) l

/-- A shaft that has come to rest never starts again, whatever gas goes through its turbines: its least speed, DBL_EPSILON, is below the
speed FLT_EPSILON from which the turbines give a torque. -/
theorem c74_never_starts (c : ShaftConfig) (hc : 0 ≤ c.frictionConstant) (hm0 : 0 ≤ c.frictionMinSpeed) (hI : 0 < c.inertia) (m : ShaftMalf)
    (hm : m.override = none) (l : List (ℝ × List (Turb × ℝ) × List (Fan × ℝ))) (hl : ∀ f ∈ l, 0 ≤ f.1) (s : Shaft) (hs : s.speed = dblEps)
    (hL : s.load = 0) : (c74Coupled c m s l).speed = dblEps := by
  induction l generalizing s with
  | nil => exact hs
  | cons f l ih =>
    obtain ⟨dt, tu, fa⟩ := f
    have h0 : 0 ≤ dt := hl _ List.mem_cons_self
    have hr : (s.preSolver c m dt).speed = dblEps := by
      rw [pre_speed c m hm, hL, hs]
      apply max_eq_right
      have h1 : 0 ≤ c.frictionConstant * max dblEps c.frictionMinSpeed * dt * secPerMinPer2Pi / c.inertia := by
        have := kpos
        have := hm0.trans (le_max_right dblEps c.frictionMinSpeed)
        positivity
      have e : (0 + -c.frictionConstant * max dblEps c.frictionMinSpeed) * dt * secPerMinPer2Pi / c.inertia =
          -(c.frictionConstant * max dblEps c.frictionMinSpeed * dt * secPerMinPer2Pi / c.inertia) := by ring
      rw [e]; linarith
    have hcp : c74Coupled c m s ((dt, tu, fa) :: l) = c74Coupled c m ((s.preSolver c m dt).postSolver m
      (tu.map (fun t => ({ t.1 with motorSpeed := (s.preSolver c m dt).speed }.updateFluid t.2).torque))
      (fa.map (fun f => ({ f.1 with motorSpeed := (s.preSolver c m dt).speed }.updatePower f.2).torque))) l := rfl
    rw [hcp]
    apply ih (fun f hf => hl f (List.mem_cons_of_mem _ hf))
    · rw [(c74_load _ _ _ _).2, hr]
    · have h1 : (tu.map (fun t => ({ t.1 with motorSpeed := (s.preSolver c m dt).speed }.updateFluid t.2).torque)).sum = 0 := by
        apply List.sum_eq_zero
        intro x hx
        obtain ⟨t, -, rfl⟩ := List.mem_map.mp hx
        exact ((c74_turbine_power { t.1 with motorSpeed := (s.preSolver c m dt).speed } t.2).2.2.2.2.2 (by rw [hr]; exact e_lt_f.le)).1
      have h2 : (fa.map (fun f => ({ f.1 with motorSpeed := (s.preSolver c m dt).speed }.updatePower f.2).torque)).sum = 0 := by
        apply List.sum_eq_zero
        intro x hx
        obtain ⟨t, -, rfl⟩ := List.mem_map.mp hx
        exact (c73_power { t.1 with motorSpeed := (s.preSolver c m dt).speed } t.2).2.2.2 (by rw [hr]; exact e_lt_f.le)
      rw [(c74_load _ _ _ _).1, h1, h2]; ring

/-- The corrected speeds are accepted in the wrong order; the turbine is then on the curve named low at all speeds and temperatures. -/
theorem c74_swapped (t : Turb) (h : t.speedHigh < t.speedLow) (temp : ℝ) (y1 y2 : ℝ) : interpolate y1 y2 (t.frac temp) = y1 := by
  have : t.frac temp = 0 := by
    unfold Turb.frac limitRange
    dsimp only
    rw [max_eq_right ((min_le_right _ _).trans h.le), sub_self, zero_div]
  rw [this]; unfold interpolate; ring

private noncomputable def sampleTurbDuct : Duct where
  maxCond := 7
  effCond := 0
  sysCond := 0
  exponent := 1 / 2
  tune := .off
  tuneMass := 0
  tuneVol := 0
  minLin := 1
  block := false
  blockage := 0
  matrix := fun _ => 0
  update := false
  position := 1
  leak := false
  leakRate := 0
  prevLeak := 0
  leakCond := 0

private noncomputable def sampleTurb : Turb where
  duct := sampleTurbDuct
  refTemp := 300
  refPress := 100
  flowLow := 1
  flowHigh := 2
  rise1Low := 1
  rise1High := 1
  rise2Low := 0
  rise2High := 0
  effLow := fun k => if k = 0 then 1 / 2 else 0
  effHigh := fun k => if k = 0 then 1 / 2 else 0
  minLow := 1
  minHigh := 1
  maxLow := 10
  maxHigh := 10
  speedLow := 1000
  speedHigh := 3000
  filterGain := 1
  driveRatio := 1
  motorSpeed := 2000
  impellerSpeed := 2000
  pressureRatio := 2
  pressureDrop := 50
  efficiency := 0
  torque := 0
  power := 0
  predicted := 0
  volFlow := 1

private theorem eps_small : (dblEps : ℝ) ≤ 1 := (dblEps_lt_one (K := ℝ)).le

private theorem sampleTurb_valid : sampleTurb.valid = true := by
  have := eps_small
  rw [c74_turbine_accepted]
  unfold sampleTurb
  dsimp only
  refine ⟨?_, ?_, ?_, ⟨?_, ?_⟩, ⟨?_, ?_⟩, ?_, ⟨?_, ?_⟩, ⟨?_, ?_, ?_, ?_⟩, ?_⟩ <;> norm_num <;> linarith

/-- A first coefficient below zero is accepted; the predicted flow is negative at small pressure drops, and the turbine then open to its
maximum conductivity. -/
theorem c74_open : ∃ t : Turb, t.valid = true ∧ t.speedLow < t.speedHigh ∧ 0 < t.flowLow ∧ ∃ f0 f1 : Fl, ∃ temp, f1.p < f0.p ∧
    (t.updateState f0 f1 false temp (f0.p - f1.p)).predicted < 0 ∧
    (t.updateState f0 f1 false temp (f0.p - f1.p)).duct.effCond = t.duct.maxCond ∧ 0 < t.duct.maxCond := by
  have hv : ({ sampleTurb with rise1Low := -1, rise1High := -1 } : Turb).valid = true := sampleTurb_valid
  refine ⟨{ sampleTurb with rise1Low := -1, rise1High := -1 }, hv, by norm_num [sampleTurb], by norm_num [sampleTurb],
    { rho := 1, mw := 29, p := 150 }, { rho := 1, mw := 29, p := 100 }, 300, by norm_num, ?_⟩
  have he := eps_small
  have hfl : (fltEps : ℝ) < 1 := by unfold fltEps; norm_num
  obtain ⟨t, ht⟩ : ∃ t : Turb, t = { sampleTurb with rise1Low := -1, rise1High := -1, impellerSpeed := 2000 / 1 } := ⟨_, rfl⟩
  have hup : ({ sampleTurb with rise1Low := -1, rise1High := -1 } : Turb).updateState { rho := 1, mw := 29, p := 150 } { rho := 1, mw := 29, p := 100 } false 300 (150 - 100) =
      { t.computeFlowRate { rho := 1, mw := 29, p := 150 } 300 (150 - 100) with
        duct := { (t.computeFlowRate { rho := 1, mw := 29, p := 150 } 300 (150 - 100)).duct with
          effCond := if (t.computeFlowRate { rho := 1, mw := 29, p := 150 } 300 (150 - 100)).predicted ≥ 0 then
            predictConductivity (t.computeFlowRate { rho := 1, mw := 29, p := 150 } 300 (150 - 100)).predicted
              (t.computeFlowRate { rho := 1, mw := 29, p := 150 } 300 (150 - 100)).duct.minLin { rho := 1, mw := 29, p := 150 } { rho := 1, mw := 29, p := 100 } (1 / 2)
            else (t.computeFlowRate { rho := 1, mw := 29, p := 150 } 300 (150 - 100)).duct.maxCond } } := by
    rw [ht]
    unfold Turb.updateState
    dsimp only
    rw [if_pos (show sampleTurb.driveRatio > dblEps from dblEps_lt_one (K := ℝ))]
    rfl
  obtain ⟨e1, e2, e3⟩ := flow_eq t (src := { rho := 1, mw := 29, p := 150 }) hfl 300 (150 - 100)
  have hd : (t.computeFlowRate { rho := 1, mw := 29, p := 150 } 300 (150 - 100)).duct = sampleTurbDuct := by
    rw [ht]
    unfold Turb.computeFlowRate
    dsimp only
    split_ifs <;> rfl
  have e1' : (t.computeFlowRate { rho := 1, mw := 29, p := 150 } 300 (150 - 100)).pressureDrop = 50 := by
    rw [e1, ht]
    norm_num [sampleTurb]
  have e2' : (t.computeFlowRate { rho := 1, mw := 29, p := 150 } 300 (150 - 100)).pressureRatio = 3 / 2 := by
    rw [e2, e1', max_eq_right (by linarith : (dblEps : ℝ) ≤ 150), max_eq_right (by linarith : (dblEps : ℝ) ≤ 150 - 50)]
    norm_num
  have hr1 : interpolate t.rise1Low t.rise1High (t.frac 300) = -1 := by
    rw [ht]; unfold interpolate; dsimp only; ring
  have hr2 : interpolate t.rise2Low t.rise2High (t.frac 300) = 0 := by
    rw [ht]; unfold interpolate sampleTurb; dsimp only; ring
  have hF : 1 ≤ interpolate t.flowLow t.flowHigh (t.frac 300) := by
    obtain ⟨f0, f1⟩ := frac_mem t (by rw [ht]; norm_num [sampleTurb]) 300
    exact (interpolate_mem f0 f1 (a := 1) (b := 2) (by rw [ht]; norm_num [sampleTurb]) (by rw [ht]; norm_num [sampleTurb]) (by rw [ht]; norm_num [sampleTurb])
      (by rw [ht]; norm_num [sampleTurb])).1
  have hneg : (t.computeFlowRate { rho := 1, mw := 29, p := 150 } 300 (150 - 100)).predicted < 0 := by
    rw [e3, e2', hr1, hr2]
    apply mul_neg_of_neg_of_pos
    · apply div_neg_of_neg_of_pos
      · apply mul_neg_of_pos_of_neg (by linarith)
        norm_num
      · exact lt_max_of_lt_left epos
    · have := epos
      have h1 : (0 : ℝ) < max dblEps 150 := lt_max_of_lt_left this
      have h2 : (0 : ℝ) < max dblEps t.refPress := lt_max_of_lt_left this
      have h3 : (0 : ℝ) < max dblEps 300 := lt_max_of_lt_left this
      have h4 : (0 : ℝ) < max dblEps t.refTemp := lt_max_of_lt_left this
      dsimp only
      positivity
  rw [hup]
  refine ⟨hneg, ?_, by norm_num [sampleTurb, sampleTurbDuct]⟩
  dsimp only
  rw [if_neg (not_le.mpr hneg), hd]
  rfl

/-- The flow is corrected by the square root of the temperature and the speed by the temperature itself, so states that are similar (the
speed as the square root of the temperature) are at different places of the map. -/
theorem c74_not_similar : ∃ t : Turb, t.valid = true ∧ t.speedLow < t.speedHigh ∧
    ({ t with impellerSpeed := 2 * t.impellerSpeed }).frac (4 * t.refTemp) < t.frac t.refTemp ∧
    2 * t.impellerSpeed / √(4 * t.refTemp) = t.impellerSpeed / √t.refTemp := by
  refine ⟨sampleTurb, sampleTurb_valid, by norm_num [sampleTurb], ?_, ?_⟩
  · have he := eps_small
    have h1 := (c74_blend sampleTurb (by norm_num [sampleTurb]) (temp := 300) (by linarith) (by norm_num [sampleTurb]; linarith) 0 1).2.2.2.2
    have h2 := (c74_blend { sampleTurb with impellerSpeed := 2 * sampleTurb.impellerSpeed } (by norm_num [sampleTurb]) (temp := 4 * 300) (by linarith)
      (by norm_num [sampleTurb]; linarith) 0 1).2.2.1
    have h1' := h1 (by norm_num [sampleTurb]) (by norm_num [sampleTurb])
    have h2' := h2 (by norm_num [sampleTurb])
    unfold interpolate at h1' h2'
    have e : sampleTurb.refTemp = 300 := rfl
    rw [e]
    norm_num [sampleTurb] at h1' h2' ⊢
    rw [h2']
    linarith
  · have h4 : √(4 * sampleTurb.refTemp) = 2 * √sampleTurb.refTemp := by
      rw [Real.sqrt_mul (by norm_num), show (4 : ℝ) = 2 ^ 2 by norm_num, Real.sqrt_sq (by norm_num)]
    rw [h4, mul_div_mul_left _ _ (by norm_num)]

/-! ### Displacement pump -/

/-- A pump displaces its volume in each turn, from the node it sucks from: the demand is that volume's mass, and with an active check valve
never negative. -/
theorem c74_displaces (d : Disp) (hr : dblEps < d.driveRatio) (rho0 rho1 : ℝ) :
    let m := d.step rho0 rho1
    let Q := d.motorSpeed / d.driveRatio * d.cycleVolume / 60
    (0 < Q ∨ d.checkActive = false → m.volFlow = Q ∧ m.position = 1) ∧
    (Q ≤ 0 → d.checkActive = true → m.volFlow = 0 ∧ m.position = 0 ∧ m.flux = 0) ∧
    (0 < d.motorSpeed → m.flowDemand = m.volFlow * rho0) ∧ (d.motorSpeed ≤ 0 → m.flowDemand = m.volFlow * rho1) ∧
    (dblEps < d.weight → m.flux * d.weight = m.flowDemand * (if d.block then 1 - d.blockage else 1)) := by
  have hep := epos
  intro m Q
  have hdr : 0 < d.driveRatio := by linarith
  have h1 : m.volFlow = Q * (if Q > 0 ∨ d.checkActive = false then 1 else 0) := by
    show ((d.displace.demand rho0 rho1).source).volFlow = _
    unfold Disp.source Disp.demand Disp.displace
    rw [if_pos hr]
  have h2 : m.position = (if Q > 0 ∨ d.checkActive = false then 1 else 0) := by
    show ((d.displace.demand rho0 rho1).source).position = _
    unfold Disp.source Disp.demand Disp.displace
    rw [if_pos hr]
  have h3 : m.flowDemand = if d.motorSpeed / d.driveRatio > 0 then m.volFlow * rho0 else m.volFlow * rho1 := by
    show ((d.displace.demand rho0 rho1).source).flowDemand = if _ then ((d.displace.demand rho0 rho1).source).volFlow * rho0
      else ((d.displace.demand rho0 rho1).source).volFlow * rho1
    unfold Disp.source Disp.demand Disp.displace
    rw [if_pos hr]
  have h4 : m.flux = if d.weight > dblEps then (if d.block then m.flowDemand * (1 - d.blockage) else m.flowDemand) / d.weight else 0 := by
    show ((d.displace.demand rho0 rho1).source).flux = if _ then (if _ then ((d.displace.demand rho0 rho1).source).flowDemand * _
      else ((d.displace.demand rho0 rho1).source).flowDemand) / _ else 0
    unfold Disp.source Disp.demand Disp.displace
    rw [if_pos hr]
  refine ⟨?_, ?_, ?_, ?_, ?_⟩
  · intro h
    rw [h1, h2, if_pos h]; simp
  · intro hq hc
    have hn : ¬ (Q > 0 ∨ d.checkActive = false) := by
      rintro (h | h)
      · linarith
      · rw [hc] at h; cases h
    have hv : m.volFlow = 0 := by rw [h1, if_neg hn, mul_zero]
    have hd0 : m.flowDemand = 0 := by rw [h3, hv]; simp
    refine ⟨hv, by rw [h2, if_neg hn], ?_⟩
    rw [h4, hd0]; simp
  · intro h
    rw [h3, if_pos (div_pos h hdr)]
  · intro h
    rw [h3, if_neg (not_lt.mpr (div_nonpos_of_nonpos_of_nonneg h hdr.le))]
  · intro h
    rw [h4, if_pos h]
    have hw : d.weight ≠ 0 := by linarith
    split_ifs <;> rw [div_mul_cancel₀ _ hw]
    rw [mul_one]

/-- While the fluid it sucks in stays the same, the pump moves exactly its displaced volume through it, less the blockage. -/
theorem c74_moves (d : Disp) (hr : dblEps < d.driveRatio) (hn : 0 < d.motorSpeed) (hv : 0 < d.cycleVolume) (hb : d.block = false) (f0 f1 : Fl)
    (hw : d.weight = f0.mw) (hw0 : dblEps < f0.mw) (hrho : dblEps < f0.rho) (drop : ℝ) :
    let m := (d.step f0.rho f1.rho).transport f0 f1 drop
    m.volFlow = d.motorSpeed / d.driveRatio * d.cycleVolume / 60 ∧ m.flowRate = m.volFlow * f0.rho ∧ m.weight = f0.mw := by
  have hep := epos
  intro m
  obtain ⟨a, -, b, -, c⟩ := c74_displaces d hr f0.rho f1.rho
  obtain ⟨u, hu⟩ : ∃ u, u = d.step f0.rho f1.rho := ⟨_, rfl⟩
  rw [← hu] at a b c
  have hQ : 0 < d.motorSpeed / d.driveRatio * d.cycleVolume / 60 := by
    have : 0 < d.driveRatio := by linarith
    positivity
  have hvol := (a (Or.inl hQ)).1
  have hdem := b hn
  have hfl := c (by rw [hw]; exact hw0)
  rw [hb, if_neg (by simp), mul_one, hw, hdem, hvol] at hfl
  have hr0 : 0 < f0.rho := by linarith
  have hw0' : 0 < f0.mw := by linarith
  have hpos : 0 < u.flux := by
    by_contra hneg
    rw [not_lt] at hneg
    have h1 := mul_pos hQ hr0
    have h2 := mul_nonpos_of_nonpos_of_nonneg hneg hw0'.le
    linarith
  have hm : m = u.transport f0 f1 drop := by rw [hu]
  have hsrc : (if u.flux < 0 then f1 else f0) = f0 := if_neg (not_lt.mpr hpos.le)
  have e1 : m.flowRate = u.flux * (if u.flux < 0 then f1 else f0).mw := by rw [hm]; rfl
  have e2 : m.volFlow = if (if u.flux < 0 then f1 else f0).rho > dblEps then u.flux * (if u.flux < 0 then f1 else f0).mw / (if u.flux < 0 then f1 else f0).rho else 0 := by
    rw [hm]; rfl
  have e3 : m.weight = (if u.flux < 0 then f1 else f0).mw := by rw [hm]; rfl
  rw [hsrc] at e1 e2 e3
  rw [if_pos hrho, hfl] at e2
  rw [hfl] at e1
  have hvv : m.volFlow = d.motorSpeed / d.driveRatio * d.cycleVolume / 60 := by
    rw [e2]; field_simp
  exact ⟨hvv, by rw [e1, hvv], e3⟩

/-- The power of a pump is that of its flow against the pressure; its torque is the one of that power, and always brakes. -/
theorem c74_pump_power (d : Disp) (f0 f1 : Fl) (drop : ℝ) :
    let m := d.transport f0 f1 drop
    0 ≤ m.power ∧ m.power = 1000 * |m.volFlow| * |drop| ∧
    (fltEps < |d.motorSpeed| → dblEps < d.driveRatio → m.torque * (d.motorSpeed * (2 * Real.pi) / 60) = -m.power) ∧
    m.torque * d.motorSpeed ≤ 0 := by
  have hfp := fpos
  have hk := kpos
  intro m
  have hp : m.power = 1000 * |m.volFlow * drop| := rfl
  have hp0 : 0 ≤ m.power := by rw [hp]; positivity
  have ht : m.torque = if |d.motorSpeed| > fltEps ∧ d.driveRatio > dblEps then -m.power * secPerMinPer2Pi / d.motorSpeed else 0 := rfl
  refine ⟨hp0, by rw [hp, abs_mul]; ring, ?_, ?_⟩
  · intro h1 h2
    rw [ht, if_pos ⟨h1, h2⟩]
    have hs : d.motorSpeed ≠ 0 := by
      intro h0
      rw [h0, abs_zero] at h1
      linarith
    have := Real.pi_pos
    unfold secPerMinPer2Pi
    field_simp
  · rw [ht]
    split_ifs with h
    · have hs : d.motorSpeed ≠ 0 := by
        intro h0
        rw [h0, abs_zero] at h
        linarith [h.1]
      rw [div_mul_cancel₀ _ hs]
      have := mul_nonneg hp0 hk.le
      linarith
    · simp

/-- So a pump that is driven by the pressure is braked, and takes power, as if it pumped against that pressure. -/
theorem c74_driven (d : Disp) (f0 f1 : Fl) (drop : ℝ) : (d.transport f0 f1 drop).torque = (d.transport f0 f1 (-drop)).torque ∧
    (d.transport f0 f1 drop).power = (d.transport f0 f1 (-drop)).power := by
  have h : ∀ v : ℝ, |v * -drop| = |v * drop| := by
    intro v
    rw [mul_neg, abs_neg]
  unfold Disp.transport
  dsimp only
  simp only [h, and_self]

/-- A pump for liquid without noise displaces the rest of what it displaces that does not cavitate. -/
theorem c74_liquid (d : Disp) (c : Cav) (hm : c.malfFull = false) (hp : c.malfPartial = false) (rho0 rho1 dt v0 p0 v1 p1 noise : ℝ) (h0 : v0 ≤ p0)
    (h1 : v1 ≤ p1) :
    let m := d.stepLiquid c rho0 rho1 dt v0 p0 v1 p1 noise
    m.1.volFlow = (d.step rho0 rho1).volFlow * (1 - m.2.fraction) ∧ 0 ≤ m.2.fraction ∧ m.2.fraction ≤ 1 := by
  intro m
  obtain ⟨q, hq⟩ : ∃ q, q = d.displace.volFlow := ⟨_, rfl⟩
  have hv : m.1.volFlow = (if q ≥ 0 then c.step q dt v0 p0 noise else c.step q dt v1 p1 noise).2 := by rw [hq]; rfl
  have hc : m.2 = (if q ≥ 0 then c.step q dt v0 p0 noise else c.step q dt v1 p1 noise).1 := by rw [hq]; rfl
  have hs : (d.step rho0 rho1).volFlow = q := by rw [hq]; rfl
  rw [hv, hc, hs]
  split_ifs
  · obtain ⟨a, b, -, e, -⟩ := c73_cavitation c q dt v0 p0 noise
    exact ⟨e hm hp h0, a, b⟩
  · obtain ⟨a, b, -, e, -⟩ := c73_cavitation c q dt v1 p1 noise
    exact ⟨e hm hp h1, a, b⟩

/-- The flow is converted by the weight of the fluid of the last step: when a pump is reversed between two gases, or the gas at its inlet
changes, it moves for a step as many times its demand as the one is heavier than the other. -/
theorem c74_stale (d : Disp) (hr : dblEps < d.driveRatio) (hn : d.motorSpeed < 0) (hv : 0 < d.cycleVolume) (hc : d.checkActive = false)
    (hb : d.block = false) (f0 f1 : Fl) (hw : d.weight = f0.mw) (hw0 : dblEps < f0.mw) (hrho : dblEps < f1.rho) (drop : ℝ) :
    let m := (d.step f0.rho f1.rho).transport f0 f1 drop
    m.volFlow = d.motorSpeed / d.driveRatio * d.cycleVolume / 60 * (f1.mw / f0.mw) := by
  have hep := epos
  intro m
  obtain ⟨a, -, -, b, c⟩ := c74_displaces d hr f0.rho f1.rho
  obtain ⟨u, hu⟩ : ∃ u, u = d.step f0.rho f1.rho := ⟨_, rfl⟩
  rw [← hu] at a b c
  have hQ : d.motorSpeed / d.driveRatio * d.cycleVolume / 60 < 0 := by
    have h1 : d.motorSpeed / d.driveRatio < 0 := div_neg_of_neg_of_pos hn (by linarith)
    have := mul_neg_of_neg_of_pos h1 hv
    linarith
  have hvol := (a (Or.inr hc)).1
  have hdem := b hn.le
  have hfl := c (by rw [hw]; exact hw0)
  rw [hb, if_neg (by simp), mul_one, hw, hdem, hvol] at hfl
  have hr0 : 0 < f1.rho := by linarith
  have hw0' : 0 < f0.mw := by linarith
  have hneg : u.flux < 0 := by
    by_contra hpos
    rw [not_lt] at hpos
    have h1 := mul_neg_of_neg_of_pos hQ hr0
    have h2 := mul_nonneg hpos hw0'.le
    linarith
  have e2 : m.volFlow = if (if u.flux < 0 then f1 else f0).rho > dblEps then u.flux * (if u.flux < 0 then f1 else f0).mw / (if u.flux < 0 then f1 else f0).rho else 0 := by
    show ((d.step f0.rho f1.rho).transport f0 f1 drop).volFlow = _
    rw [hu]; rfl
  rw [if_pos hneg, if_pos hrho] at e2
  have hfx : u.flux = d.motorSpeed / d.driveRatio * d.cycleVolume / 60 * f1.rho / f0.mw := by
    rw [← hfl]; field_simp
  rw [e2, hfx]
  field_simp

/-- A shaft that is accepted, with friction, and one step towards its speed. -/
example : (⟨1, 0, 100⟩ : ShaftConfig).valid 0 = true ∧ (dblEps : ℝ) ≤ 2 / 1 ∧ (1 / 10 : ℝ) * (1 * secPerMinPer2Pi / 100) ≤ 1 := by
  refine ⟨(c74_shaft_accepted _ _).mpr ⟨by norm_num, le_refl _, ?_, le_refl _⟩, ?_, ?_⟩
  · have := eps_small
    show dblEps < (100 : ℝ)
    linarith
  · have := eps_small
    linarith
  · have h : secPerMinPer2Pi ≤ 60 / (2 * 3) := by
      unfold secPerMinPer2Pi
      apply div_le_div_of_nonneg_left <;> linarith [Real.pi_gt_three]
    linarith

/-- A turbine that is accepted, as C74's theorems ask, which gives power. -/
example : sampleTurb.valid = true ∧ sampleTurb.speedLow < sampleTurb.speedHigh ∧ 0 ≤ sampleTurb.rise1Low ∧ sampleTurb.rise1Low ≤ 2 ∧
    (sampleTurb.updateFluid 300).power = -25000 := by
  refine ⟨sampleTurb_valid, by norm_num [sampleTurb], by norm_num [sampleTurb], by norm_num [sampleTurb], ?_⟩
  obtain ⟨-, -, -, h, -, -⟩ := c74_turbine_power sampleTurb 300
  have hf : (fltEps : ℝ) < sampleTurb.motorSpeed := by unfold fltEps; norm_num [sampleTurb]
  obtain ⟨-, h2⟩ := h hf (dblEps_lt_one (K := ℝ))
  have he : (sampleTurb.updateFluid 300).efficiency = 1 / 2 := by
    unfold Turb.updateFluid
    dsimp only
    rw [if_pos ⟨hf, show sampleTurb.driveRatio > dblEps from dblEps_lt_one (K := ℝ)⟩]
    dsimp only
    rw [if_pos]
    · unfold limitRange curve
      norm_num [sampleTurb, interpolate, loop_succ]
    · constructor <;> norm_num [sampleTurb, interpolate]
  rw [he] at h2
  norm_num [sampleTurb] at h2 ⊢
  linarith

end Gunns.Props
