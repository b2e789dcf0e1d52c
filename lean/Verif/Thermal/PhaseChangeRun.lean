import Verif.Thermal.PhaseChangeLemmas

/-! # One network step of the thermal phase-change battery -/

set_option linter.unusedSectionVars false

namespace Gunns.Thermal

open Gunns.Elements Gunns.Thermal.Spec

variable {K : Type _} [Field K] [LinearOrder K] [IsStrictOrderedRing K]

/-- The configuration after a step. -/
theorem cycle_const (dt p : K) (s : Pcb K) :
    (Pcb.cycle dt p s).tpc = s.tpc ∧ (Pcb.cycle dt p s).hotCp = s.hotCp ∧
    (Pcb.cycle dt p s).coldCp = s.coldCp ∧ (Pcb.cycle dt p s).struct = s.struct ∧
    (Pcb.cycle dt p s).heat = max s.heat dblEps ∧
    (Pcb.cycle dt p s).temp = p ∧ (Pcb.cycle dt p s).pot = p ∧
    (Pcb.cycle dt p s).leakFlag = s.leakFlag := by
  obtain ⟨h1, h2, h3, h4, h5, h6, h7, h8, h9, h10⟩ := step_fields dt s
  rw [cycle_eq]
  dsimp only [solved]
  rw [h4]
  exact ⟨h3, h5, h6, h7, rfl, rfl, rfl, h1⟩

theorem cycle_power (dt p : K) (s : Pcb K) :
    (Pcb.cycle dt p s).power = (p - (s.step dt).pot) * (s.step dt).adm + (s.step dt).sumExt := by
  rw [cycle_eq]
  show p * (s.step dt).admMatrix - (s.step dt).source + (s.step dt).sumExt = _
  rw [(step_matrix dt s).1, (step_matrix dt s).2]
  ring

theorem capacitance_cold {s : Pcb K} (h : s.frac = 0) :
    Pcb.capacitance { s with frac := limitRange 0 s.frac 1 } = s.struct + 1000 * s.mass * s.coldCp := by
  unfold Pcb.capacitance unitPerKilo
  rw [if_pos (by rw [h, limit_id le_rfl zero_le_one])]
  ring

theorem capacitance_hot {s : Pcb K} (h : s.frac = 1) :
    Pcb.capacitance { s with frac := limitRange 0 s.frac 1 } = s.struct + 1000 * s.mass * s.hotCp := by
  unfold Pcb.capacitance unitPerKilo
  have : limitRange 0 s.frac 1 = 1 := by rw [h, limit_id zero_le_one le_rfl]
  rw [if_neg (by rw [this]; exact zero_ne_one), if_pos this.symm]
  ring

theorem capacitance_mixed {s : Pcb K} (h0 : 0 < s.frac) (h1 : s.frac < 1) :
    Pcb.capacitance { s with frac := limitRange 0 s.frac 1 } = s.struct := by
  unfold Pcb.capacitance
  have : limitRange 0 s.frac 1 = s.frac := limit_id h0.le h1.le
  rw [if_neg (by rw [this]; exact h0.ne), if_neg (by rw [this]; exact h1.ne')]

theorem power_single {dt p C : K} {s : Pcb K} (ho : s.override = false) (hd : dblEps ≤ dt)
    (hC : Pcb.capacitance { s with frac := limitRange 0 s.frac 1 } = C) (hs : 0 < s.struct)
    (hC' : s.struct < C) : (Pcb.cycle dt p s).power * dt = C * (p - s.pot) := by
  have hc : s.struct < Pcb.capacitance { s with frac := limitRange 0 s.frac 1 } := by rw [hC]; exact hC'
  obtain ⟨ha, hp⟩ := step_single (dt := dt) ho hc
  rw [cycle_power, ha, hp, hC, max_eq_left hd]
  have h1 : dt ≠ 0 := ((dblEps_pos (K := K)).trans_le hd).ne'
  have h2 : C ≠ 0 := (hs.trans hC').ne'
  field_simp
  ring

theorem power_mixed {dt p : K} {s : Pcb K} (ho : s.override = false) (h0 : 0 < s.frac)
    (h1 : s.frac < 1) : (Pcb.cycle dt p s).power = 1000000 * (p - s.tpc) := by
  have hc : ¬ s.struct < Pcb.capacitance { s with frac := limitRange 0 s.frac 1 } := by
    rw [capacitance_mixed h0 h1]; exact lt_irrefl _
  obtain ⟨ha, hp⟩ := step_mixed (dt := dt) ho hc
  rw [cycle_power, ha, hp]
  unfold idealAdmittance
  field_simp
  ring

theorem solved_frac (dt p : K) (s : Pcb K) : (solved dt p s).frac = limitRange 0 s.frac 1 :=
  (step_fields dt s).2.2.2.2.2.2.2.2.1

theorem solved_mass (dt p : K) (s : Pcb K) : (solved dt p s).mass = max s.mass (dblEps * 3) := by
  show max (s.step dt).mass _ = _
  rw [(step_fields dt s).2.2.2.2.2.2.2.1]

/-- Without a leak the mass stays, and the fraction is the limited result of `updatePhaseFraction`. -/
theorem cycle_tight {dt p : K} {s : Pcb K} (hl : s.leakFlag = false) :
    (Pcb.cycle dt p s).mass = max s.mass (dblEps * 3) ∧ (Pcb.cycle dt p s).leak = 0 ∧
    (Pcb.cycle dt p s).frac = limitRange 0 (rawFrac dt (solved dt p s)) 1 := by
  have he := dblEps_pos (K := K)
  have hz : leakOf dt { solved dt p s with frac := rawFrac dt (solved dt p s) } = 0 := by
    unfold leakOf
    apply if_neg
    rintro ⟨h, -⟩
    have : (s.step dt).leakFlag = true := h
    rw [(step_fields dt s).1, hl] at this
    exact Bool.false_ne_true this
  rw [cycle_eq]
  dsimp only
  rw [hz, zero_mul, sub_zero, sub_zero, solved_mass, mul_div_cancel_left₀]
  · exact ⟨rfl, rfl, rfl⟩
  · exact (lt_of_lt_of_le (by linarith : (0 : K) < dblEps * 3) (le_max_right _ _)).ne'

theorem rawFrac_solved {dt p : K} {s : Pcb K} (hv : Valid s) :
    rawFrac dt (solved dt p s) =
      if s.frac = 0 ∧ p > s.tpc then s.coldCp * (p - s.tpc) / s.heat
      else if s.frac = 1 ∧ p < s.tpc then 1 + s.hotCp * (p - s.tpc) / s.heat
      else if 0 < s.frac ∧ 1 > s.frac then
        s.frac + (Pcb.cycle dt p s).power * dt / (1000 * s.mass * s.heat)
      else s.frac := by
  have he := dblEps_pos (K := K)
  have hf := solved_frac dt p s
  rw [limit_id hv.frac0 hv.frac1] at hf
  have hm := solved_mass dt p s
  rw [max_eq_left (by have := hv.mass; linarith)] at hm
  obtain ⟨h1, h2, h3, h4, h5, h6, h7, h8, h9, h10⟩ := step_fields dt s
  have hh : (solved dt p s).heat = s.heat := by
    show max (s.step dt).heat _ = _
    rw [h4, max_eq_left hv.heat]
  have ht : (solved dt p s).tpc = s.tpc := h3
  have hhot : (solved dt p s).hotCp = s.hotCp := h5
  have hcold : (solved dt p s).coldCp = s.coldCp := h6
  have htemp : (solved dt p s).temp = p := rfl
  have hpow : (solved dt p s).power = (Pcb.cycle dt p s).power := by rw [cycle_eq]
  have hm0 : s.mass ≠ 0 := by have := hv.mass; have : 0 < s.mass := by linarith
                              exact this.ne'
  have hh0 : s.heat ≠ 0 := (he.trans_le hv.heat).ne'
  unfold rawFrac
  rw [hf, hm, hh, ht, hhot, hcold, htemp, hpow]
  by_cases c1 : s.frac = 0 ∧ p > s.tpc
  · rw [if_pos ⟨c1.1.symm, c1.2⟩, if_pos c1, c1.1]
    field_simp
    ring
  rw [if_neg (fun h => c1 ⟨h.1.symm, h.2⟩), if_neg c1]
  by_cases c2 : s.frac = 1 ∧ p < s.tpc
  · rw [if_pos ⟨c2.1.symm, c2.2⟩, if_pos c2, c2.1]
    field_simp
  rw [if_neg (fun h => c2 ⟨h.1.symm, h.2⟩), if_neg c2]
  split_ifs
  · unfold kiloPerUnit
    field_simp
  · rfl

/-- The mass after a step. -/
theorem cycle_mass (dt p : K) (s : Pcb K) :
    (Pcb.cycle dt p s).mass + (Pcb.cycle dt p s).leak * dt = max s.mass (dblEps * 3) ∧
    2 * dblEps ≤ (Pcb.cycle dt p s).mass ∧ 0 ≤ (Pcb.cycle dt p s).leak ∧
    (Pcb.cycle dt p s).leak ≤ max 0 s.leakRate ∧ 0 ≤ (Pcb.cycle dt p s).leak * dt := by
  have he := dblEps_pos (K := K)
  have hm : 3 * dblEps ≤ ({ solved dt p s with frac := rawFrac dt (solved dt p s) } : Pcb K).mass := by
    show _ ≤ (solved dt p s).mass
    rw [solved_mass, mul_comm]
    exact le_max_right _ _
  obtain ⟨l0, l1, l2, l3, -⟩ := leakOf_bounds (dt := dt) hm
  rw [cycle_eq]
  dsimp only
  have h2 : (solved dt p s).leakRate = s.leakRate := (step_fields dt s).2.1
  refine ⟨by rw [← solved_mass dt p s]; ring, ?_, l0, ?_, l3⟩
  · have : leakOf dt { solved dt p s with frac := rawFrac dt (solved dt p s) } * dt
      ≤ (solved dt p s).mass - 2 * dblEps := l2
    linarith
  · have := l1
    rwa [show ({ solved dt p s with frac := rawFrac dt (solved dt p s) } : Pcb K).leakRate = s.leakRate
      from h2] at this

theorem cycle_frac (dt p : K) (s : Pcb K) :
    0 ≤ (Pcb.cycle dt p s).frac ∧ (Pcb.cycle dt p s).frac ≤ 1 := by
  rw [cycle_eq]
  exact limit_range _

end Gunns.Thermal
