import Verif.Thermal.PhaseChangeSpec
import Mathlib.Tactic.FieldSimp
import Mathlib.Tactic.Ring
import Mathlib.Tactic.Linarith
import Mathlib.Tactic.LinearCombination

/-! # Lemmas about the thermal phase-change battery -/

set_option linter.unusedSectionVars false

namespace Gunns.Thermal

open Gunns.Elements Gunns.Thermal.Spec

variable {K : Type _} [Field K] [LinearOrder K] [IsStrictOrderedRing K]

theorem limit_id {x : K} (h0 : 0 ≤ x) (h1 : x ≤ 1) : limitRange 0 x 1 = x := by
  unfold limitRange; rw [min_eq_left h1, max_eq_left h0]

theorem limit_low {x : K} (h0 : x ≤ 0) : limitRange 0 x 1 = 0 := by
  unfold limitRange; rw [min_eq_left (h0.trans zero_le_one), max_eq_right h0]

theorem limit_high {x : K} (h1 : 1 ≤ x) : limitRange 0 x 1 = 1 := by
  unfold limitRange; rw [min_eq_right h1, max_eq_left zero_le_one]

theorem limit_range (x : K) : 0 ≤ limitRange 0 x 1 ∧ limitRange 0 x 1 ≤ 1 := by
  unfold limitRange
  exact ⟨le_max_right _ _, max_le (min_le_right _ _) zero_le_one⟩

/-- The fraction after `updatePhaseFraction`. -/
def rawFrac (dt : K) (s : Pcb K) : K :=
  if 0 = s.frac ∧ s.temp > s.tpc then
    s.frac + s.coldCp * s.mass * (s.temp - s.tpc) / s.heat / s.mass
  else if 1 = s.frac ∧ s.temp < s.tpc then
    s.frac + s.hotCp * s.mass * (s.temp - s.tpc) / s.heat / s.mass
  else if 0 < s.frac ∧ 1 > s.frac then
    s.frac + kiloPerUnit * s.power * dt / s.heat / s.mass
  else s.frac

theorem phaseFraction_eq (dt : K) (s : Pcb K) :
    s.updatePhaseFraction dt = { s with frac := rawFrac dt s } := by
  unfold Pcb.updatePhaseFraction rawFrac
  split_ifs <;> rfl

/-- The leak rate of `updateMassLeak`. -/
def leakOf (dt : K) (s : Pcb K) : K :=
  if s.leakFlag = true ∧ s.frac > 0 ∧ dt > 0 then
    min (max 0 s.leakRate) (max 0 (min (s.mass * s.frac - dblEps) (s.mass - 2 * dblEps)) / dt)
  else 0

theorem massLeak_eq (dt : K) (s : Pcb K) (hm : 0 < s.mass) :
    s.updateMassLeak dt = { s with
      leakRate := max 0 s.leakRate
      leak := leakOf dt s
      mass := s.mass - leakOf dt s * dt
      frac := (s.mass * s.frac - leakOf dt s * dt) / (s.mass - leakOf dt s * dt) } := by
  unfold Pcb.updateMassLeak leakOf
  by_cases h : s.leakFlag = true ∧ s.frac > 0 ∧ dt > 0
  · simp only [if_pos h]
  · simp only [if_neg h, zero_mul, sub_zero, mul_div_cancel_left₀ _ hm.ne']

theorem leakOf_bounds {dt : K} {s : Pcb K} (hm : 3 * dblEps ≤ s.mass) :
    0 ≤ leakOf dt s ∧ leakOf dt s ≤ max 0 s.leakRate ∧ leakOf dt s * dt ≤ s.mass - 2 * dblEps ∧
    0 ≤ leakOf dt s * dt ∧
    (0 < s.frac → leakOf dt s * dt < s.mass * s.frac) := by
  have he := dblEps_pos (K := K)
  unfold leakOf
  split_ifs with h
  · obtain ⟨-, hf, hd⟩ := h
    have hd' : 0 < dt := hd
    have h0 : 0 ≤ max 0 (min (s.mass * s.frac - dblEps) (s.mass - 2 * dblEps)) / dt :=
      div_nonneg (le_max_left _ _) hd'.le
    have hle : min (max 0 s.leakRate) (max 0 (min (s.mass * s.frac - dblEps) (s.mass - 2 * dblEps)) / dt)
        * dt ≤ max 0 (min (s.mass * s.frac - dblEps) (s.mass - 2 * dblEps)) := by
      rw [← le_div_iff₀ hd']; exact min_le_right _ _
    have hn : 0 ≤ min (max 0 s.leakRate)
        (max 0 (min (s.mass * s.frac - dblEps) (s.mass - 2 * dblEps)) / dt) :=
      le_min (le_max_left _ _) h0
    refine ⟨hn, min_le_left _ _, hle.trans (max_le (by linarith) (min_le_right _ _)),
      mul_nonneg hn hd'.le, fun _ => lt_of_le_of_lt hle ?_⟩
    have : 0 < s.mass * s.frac := mul_pos (by linarith) hf
    exact max_lt this (lt_of_le_of_lt (min_le_left _ _) (by linarith))
  · simp only [zero_mul]
    exact ⟨le_rfl, le_max_left _ _, by linarith, le_rfl, fun hf => mul_pos (by linarith) hf⟩

/-- The state `computeFlows` hands to `updateFlux`. -/
def solved (dt p : K) (s : Pcb K) : Pcb K :=
  let u := s.step dt
  { u with
    pot := p
    temp := p
    drop := p
    flux := p * u.admMatrix - u.source
    power := p * u.admMatrix - u.source + u.sumExt
    heat := max u.heat dblEps
    mass := max u.mass (dblEps * 3) }

theorem cycle_eq (dt p : K) (s : Pcb K) :
    Pcb.cycle dt p s =
      (let t := { solved dt p s with frac := rawFrac dt (solved dt p s) }
      { t with
        leakRate := max 0 t.leakRate
        leak := leakOf dt t
        mass := t.mass - leakOf dt t * dt
        frac := limitRange 0 ((t.mass * t.frac - leakOf dt t * dt) / (t.mass - leakOf dt t * dt)) 1 }) := by
  have he := dblEps_pos (K := K)
  show Pcb.updateFlux dt _ = _
  unfold Pcb.updateFlux
  simp only [phaseFraction_eq]
  rw [massLeak_eq]
  · rfl
  · exact lt_of_lt_of_le (by linarith : (0 : K) < dblEps * 3) (le_max_right _ _)

theorem step_fields (dt : K) (s : Pcb K) :
    (s.step dt).leakFlag = s.leakFlag ∧ (s.step dt).leakRate = s.leakRate ∧ (s.step dt).tpc = s.tpc ∧
    (s.step dt).heat = s.heat ∧ (s.step dt).hotCp = s.hotCp ∧ (s.step dt).coldCp = s.coldCp ∧
    (s.step dt).struct = s.struct ∧ (s.step dt).mass = s.mass ∧
    (s.step dt).frac = limitRange 0 s.frac 1 ∧
    (s.step dt).sumExt = loop (fun i acc => acc + s.ext i) numExt 0 := by
  unfold Pcb.step Pcb.updateState Pcb.setTemperature Pcb.sumExternalFluxes
  dsimp only
  split_ifs <;> exact ⟨rfl, rfl, rfl, rfl, rfl, rfl, rfl, rfl, rfl, rfl⟩

theorem step_matrix (dt : K) (s : Pcb K) :
    (s.step dt).admMatrix = (s.step dt).adm ∧ (s.step dt).source = (s.step dt).pot * (s.step dt).adm := by
  unfold Pcb.step
  dsimp only
  generalize s.updateState dt = u
  split_ifs with h
  · exact ⟨rfl, rfl⟩
  · have : u.admMatrix = u.adm := by
      have := abs_nonpos_iff.1 (not_lt.1 h)
      exact sub_eq_zero.1 this
    exact ⟨this, by rw [← this]⟩

theorem step_single {dt : K} {s : Pcb K} (ho : s.override = false)
    (hc : s.struct < Pcb.capacitance { s with frac := limitRange 0 s.frac 1 }) :
    (s.step dt).adm = Pcb.capacitance { s with frac := limitRange 0 s.frac 1 } / max dt dblEps ∧
    (s.step dt).pot = s.pot + (s.step dt).sumExt * dt /
      Pcb.capacitance { s with frac := limitRange 0 s.frac 1 } := by
  unfold Pcb.step
  dsimp only
  unfold Pcb.updateState Pcb.sumExternalFluxes Pcb.setTemperature
  dsimp only
  have hn : ¬ s.override = true := by rw [ho]; exact Bool.false_ne_true
  simp only [if_neg hn, gt_iff_lt, if_pos hc]
  split_ifs <;> exact ⟨rfl, rfl⟩

theorem step_mixed {dt : K} {s : Pcb K} (ho : s.override = false)
    (hc : ¬ s.struct < Pcb.capacitance { s with frac := limitRange 0 s.frac 1 }) :
    (s.step dt).adm = idealAdmittance ∧
    (s.step dt).pot = s.tpc + (s.step dt).sumExt / idealAdmittance := by
  unfold Pcb.step
  dsimp only
  unfold Pcb.updateState Pcb.sumExternalFluxes Pcb.setTemperature
  dsimp only
  have hn : ¬ s.override = true := by rw [ho]; exact Bool.false_ne_true
  simp only [if_neg hn, gt_iff_lt, if_neg hc]
  split_ifs <;> exact ⟨rfl, rfl⟩

theorem step_override {dt : K} {s : Pcb K} (ho : s.override = true) :
    (s.step dt).adm = dblEps ∧ (s.step dt).pot = s.pot := by
  unfold Pcb.step
  dsimp only
  unfold Pcb.updateState Pcb.sumExternalFluxes Pcb.setTemperature
  dsimp only
  simp only [if_pos ho]
  split_ifs <;> exact ⟨rfl, rfl⟩

end Gunns.Thermal
