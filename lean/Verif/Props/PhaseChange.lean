import Verif.Thermal.PhaseChangeRun

/-!
# C48: the thermal phase-change battery and its heat

Model: `Verif.Thermal.PhaseChange`.  Specification: `Verif.Thermal.PhaseChangeSpec` (phase, heat content,
runs, heat put in, mass leaked).
-/

set_option linter.unusedSectionVars false

namespace Gunns.Props

open Gunns.Elements Gunns.Thermal Gunns.Thermal.Spec

variable {K : Type _} [Field K] [LinearOrder K] [IsStrictOrderedRing K]

/-- C48, the state.  After any run, with any input (also a bad fraction or mass written from outside before
it), the hot fraction is in [0, 1] and the mass positive. -/
theorem c48_state (s : Pcb K) (l : List (Input K)) (hl : l ≠ []) :
    0 ≤ (final s l).frac ∧ (final s l).frac ≤ 1 ∧ 2 * dblEps ≤ (final s l).mass := by
  obtain ⟨l, i, rfl⟩ : ∃ l' i, l = l' ++ [i] := ⟨_, _, (List.dropLast_append_getLast hl).symm⟩
  unfold final
  rw [List.foldl_append]
  show 0 ≤ (feed _ i).frac ∧ (feed _ i).frac ≤ 1 ∧ 2 * dblEps ≤ (feed _ i).mass
  exact ⟨(cycle_frac _ _ _).1, (cycle_frac _ _ _).2, (cycle_mass _ _ _).2.1⟩

/-- C48, the mass.  In a run in which the mass stays at its floor of `3 DBL_EPSILON` or above, all mass
that is gone is reported as leaked, and no mass appears. -/
theorem c48_mass (l : List (Input K)) : ∀ (s : Pcb K),
    (∀ t ∈ states s l, 3 * dblEps ≤ t.mass) → (final s l).mass + leaked s l = s.mass ∧ 0 ≤ leaked s l := by
  induction l with
  | nil => intro s _; exact ⟨add_zero _, le_rfl⟩
  | cons i l ih =>
    intro s h
    obtain ⟨h1, h2⟩ := ih (feed s i) (fun t ht => h t (List.mem_cons_of_mem _ ht))
    have hm := h s List.mem_cons_self
    obtain ⟨m1, -, -, -, m5⟩ := cycle_mass i.dt i.p { s with
      ext := i.ext
      override := i.override
      leakFlag := i.leakFlag
      leakRate := i.leakRate }
    rw [max_eq_left (by show dblEps * 3 ≤ s.mass; linarith)] at m1
    have m1' : (feed s i).mass + (feed s i).leak * i.dt = s.mass := m1
    have m5' : 0 ≤ (feed s i).leak * i.dt := m5
    show (final (feed s i) l).mass + ((feed s i).leak * i.dt + leaked (feed s i) l) = s.mass ∧
      0 ≤ (feed s i).leak * i.dt + leaked (feed s i) l
    exact ⟨by linarith, by linarith⟩

private theorem step_flag (dt : K) (s : Pcb K) (b : Bool) :
    Pcb.step dt { s with leakFlag := b } = { s.step dt with leakFlag := b } := by
  unfold Pcb.step Pcb.updateState Pcb.setTemperature Pcb.sumExternalFluxes Pcb.capacitance
  dsimp only
  split_ifs <;> rfl

/-- C48, the leak.  Compared with the same step without the leak: the leak rate is between zero and the
rate asked for, and is that rate unless it would take almost all of the hot or of the total mass; the mass
lost is that of the leak; the cold mass is the same; and the leak alone does not use up the hot phase. -/
theorem c48_leak (dt p : K) (s : Pcb K) (hd : 0 < dt) :
    let a := Pcb.cycle dt p { s with leakFlag := false }
    let b := Pcb.cycle dt p { s with leakFlag := true }
    0 ≤ b.leak ∧ b.leak ≤ max 0 s.leakRate ∧ b.mass = a.mass - b.leak * dt ∧
    b.mass * (1 - b.frac) = a.mass * (1 - a.frac) ∧ (0 < a.frac → 0 < b.frac) ∧
    (0 < a.frac → a.frac < 1 → 0 ≤ s.leakRate → s.leakRate * dt + dblEps ≤ a.mass * a.frac →
      s.leakRate * dt + 2 * dblEps ≤ a.mass → b.leak = s.leakRate) := by
  intro a b
  have he := dblEps_pos (K := K)
  obtain ⟨a1, -, a3⟩ := cycle_tight (dt := dt) (p := p) (s := { s with leakFlag := false }) rfl
  obtain ⟨b1, -, b3, b4, -⟩ := cycle_mass dt p { s with leakFlag := true }
  have hM : 3 * dblEps ≤ a.mass := by
    show _ ≤ (Pcb.cycle dt p _).mass
    rw [a1, mul_comm]; exact le_max_right _ _
  have hmass : b.mass = a.mass - b.leak * dt := by
    show (Pcb.cycle dt p _).mass = (Pcb.cycle dt p _).mass - _
    rw [a1]
    exact eq_sub_of_add_eq b1
  -- the unlimited fraction
  have hsolved : ∀ c, solved dt p { s with leakFlag := c } = { solved dt p s with leakFlag := c } := by
    intro c
    unfold solved
    rw [step_flag]
  have hraw : ∀ c, rawFrac dt (solved dt p { s with leakFlag := c }) = rawFrac dt (solved dt p s) := by
    intro c
    rw [hsolved]
    rfl
  obtain ⟨r, hr⟩ : ∃ r, r = rawFrac dt (solved dt p s) := ⟨_, rfl⟩
  have ha : a.frac = limitRange 0 r 1 := by
    show (Pcb.cycle dt p _).frac = _
    rw [a3, hraw, hr]
  have hb : b.frac = limitRange 0 ((a.mass * r - b.leak * dt) / (a.mass - b.leak * dt)) 1 ∧
      b.leak = (if r > 0 then min (max 0 s.leakRate)
        (max 0 (min (a.mass * r - dblEps) (a.mass - 2 * dblEps)) / dt) else 0) := by
    have hsm : (solved dt p { s with leakFlag := true }).mass = a.mass := by
      show _ = (Pcb.cycle dt p _).mass
      rw [a1, solved_mass]
    have hsl : (solved dt p { s with leakFlag := true }).leakFlag = true := (step_fields dt _).1
    have hsr : (solved dt p { s with leakFlag := true }).leakRate = s.leakRate := (step_fields dt _).2.1
    have hlk : b.leak = leakOf dt { solved dt p { s with leakFlag := true } with
        frac := rawFrac dt (solved dt p { s with leakFlag := true }) } := by
      show (Pcb.cycle dt p _).leak = _
      rw [cycle_eq]
    constructor
    · rw [hlk]
      show (Pcb.cycle dt p _).frac = _
      rw [cycle_eq]
      dsimp only
      rw [hsm, hraw, hr]
    · rw [hlk]
      unfold leakOf
      dsimp only
      rw [hsm, hraw, hsl, hsr, ← hr]
      by_cases h : r > 0
      · rw [if_pos ⟨rfl, h, hd⟩, if_pos h]
      · rw [if_neg (fun hh => h hh.2.1), if_neg h]
  obtain ⟨hbf, hbl⟩ := hb
  have hbpos : 2 * dblEps ≤ b.mass := (cycle_mass dt p _).2.1
  have hden : 0 < a.mass - b.leak * dt := by rw [← hmass]; linarith
  have hposm : 0 < a.mass := by linarith
  have hl0 : 0 ≤ b.leak * dt := mul_nonneg b3 hd.le
  refine ⟨b3, b4, hmass, ?_, ?_, ?_⟩
  · rcases le_total r 0 with h | h
    · have : b.leak = 0 := by rw [hbl, if_neg (not_lt.2 h)]
      rw [hmass, hbf, ha, this, zero_mul, sub_zero, sub_zero, mul_div_cancel_left₀ _ hposm.ne']
    · rcases le_total r 1 with h1 | h1
      · rcases h.lt_or_eq with h | h
        · have hlt : b.leak * dt < a.mass * r := by
            rw [hbl, if_pos h]
            refine lt_of_le_of_lt (mul_le_mul_of_nonneg_right (min_le_right _ _) hd.le) ?_
            rw [div_mul_cancel₀ _ hd.ne']
            exact max_lt (mul_pos hposm h) (lt_of_le_of_lt (min_le_left _ _) (by linarith))
          rw [hbf, limit_id (div_nonneg (by linarith) hden.le), hmass, ha, limit_id h.le h1]
          · field_simp
            ring
          · rw [div_le_one hden]
            have := mul_le_mul_of_nonneg_left h1 hposm.le
            linarith
        · have : b.leak = 0 := by rw [hbl, if_neg (not_lt.2 h.ge)]
          rw [hmass, hbf, ha, this, zero_mul, sub_zero, sub_zero, mul_div_cancel_left₀ _ hposm.ne']
      · rw [hbf, limit_high, ha, limit_high h1, sub_self, mul_zero, mul_zero]
        rw [one_le_div hden]
        have := mul_le_mul_of_nonneg_left h1 hposm.le
        linarith
  · intro hap
    have h : 0 < r := by
      by_contra hn
      rw [ha, limit_low (not_lt.1 hn)] at hap
      exact lt_irrefl _ hap
    have hlt : b.leak * dt < a.mass * r := by
      rw [hbl, if_pos h]
      refine lt_of_le_of_lt (mul_le_mul_of_nonneg_right (min_le_right _ _) hd.le) ?_
      rw [div_mul_cancel₀ _ hd.ne']
      exact max_lt (mul_pos hposm h) (lt_of_le_of_lt (min_le_left _ _) (by linarith))
    rw [hbf]
    unfold limitRange
    exact lt_of_lt_of_le (lt_min (div_pos (by linarith) hden) one_pos) (le_max_left _ _)
  · intro h0 h1 hr0 hc1 hc2
    have hr' : a.frac = r := by
      rcases le_total r 0 with h | h
      · rw [ha, limit_low h] at h0; exact absurd h0 (lt_irrefl _)
      · rcases le_total r 1 with h' | h'
        · rw [ha, limit_id h h']
        · rw [ha, limit_high h'] at h1; exact absurd h1 (lt_irrefl _)
    rw [hr'] at h0 hc1
    rw [hbl, if_pos h0, max_eq_right hr0]
    apply min_eq_left
    rw [le_div_iff₀ hd]
    exact le_trans (le_min (by linarith) (by linarith)) (le_max_right _ _)

/-- C48, the stamp.  The conductance to ground is positive and the source is the conductance times the
temperature the link asks for; that is the phase-change temperature, shifted by the external heat, for
mixed phases, and the temperature to which the external heat brings the battery for a single phase. -/
theorem c48_stamp (dt : K) {s : Pcb K} (hv : Valid s) :
    let u := s.step dt
    0 < u.admMatrix ∧ u.source = u.pot * u.admMatrix ∧
    (s.override = false → phase s = .mixed →
      u.pot = s.tpc + u.sumExt / 1000000 ∧ u.admMatrix = 1000000) ∧
    (s.override = false → phase s = .cold → dblEps ≤ dt →
      u.admMatrix * dt = s.struct + 1000 * s.mass * s.coldCp ∧
      u.admMatrix * (u.pot - s.temp) = u.sumExt) ∧
    (s.override = false → phase s = .hot → dblEps ≤ dt →
      u.admMatrix * dt = s.struct + 1000 * s.mass * s.hotCp ∧
      u.admMatrix * (u.pot - s.temp) = u.sumExt) := by
  intro u
  have he := dblEps_pos (K := K)
  have hm : 0 < s.mass := by have := hv.mass; linarith
  have hs := hv.struct
  have hd : 0 < max dt dblEps := lt_of_lt_of_le he (le_max_right _ _)
  obtain ⟨hA, hS⟩ := step_matrix dt s
  have hA' : u.admMatrix = u.adm := hA
  have hcold : 0 < 1000 * s.mass * s.coldCp := by have := hv.coldCp; positivity
  have hhot : 0 < 1000 * s.mass * s.hotCp := by have := hv.hotCp; positivity
  have single : ∀ C, s.override = false → s.struct < C →
      Pcb.capacitance { s with frac := limitRange 0 s.frac 1 } = C →
      0 < u.adm ∧ (dblEps ≤ dt → u.adm * dt = C ∧ u.adm * (u.pot - s.temp) = u.sumExt) := by
    intro C ho hlt hC
    obtain ⟨h1, h2⟩ := step_single (dt := dt) ho (by rw [hC]; exact hlt)
    rw [hC] at h1 h2
    have hC0 : 0 < C := hs.trans hlt
    have h1' : u.adm = C / max dt dblEps := h1
    have h2' : u.pot = s.pot + u.sumExt * dt / C := h2
    refine ⟨by rw [h1']; exact div_pos hC0 hd, fun hdt => ?_⟩
    have hdt0 : dt ≠ 0 := (he.trans_le hdt).ne'
    rw [h1', h2', max_eq_left hdt, hv.level]
    refine ⟨div_mul_cancel₀ _ hdt0, ?_⟩
    have := hC0.ne'
    field_simp
    ring
  refine ⟨?_, by rw [hA']; exact hS, ?_, ?_, ?_⟩
  · rw [hA']
    cases ho : s.override
    · by_cases h0 : s.frac = 0
      · exact (single _ ho (by linarith) (capacitance_cold h0)).1
      · by_cases h1 : s.frac = 1
        · exact (single _ ho (by linarith) (capacitance_hot h1)).1
        · have h0' : 0 < s.frac := lt_of_le_of_ne hv.frac0 (Ne.symm h0)
          have h1' : s.frac < 1 := lt_of_le_of_ne hv.frac1 h1
          have := (step_mixed (dt := dt) ho (by rw [capacitance_mixed h0' h1']; exact lt_irrefl _)).1
          show 0 < (s.step dt).adm
          rw [this]
          unfold idealAdmittance
          norm_num
    · show 0 < (s.step dt).adm
      rw [(step_override ho).1]
      exact he
  · intro ho hp
    unfold phase at hp
    split_ifs at hp with h0 h1
    have h0' : 0 < s.frac := lt_of_le_of_ne hv.frac0 (Ne.symm h0)
    have h1' : s.frac < 1 := lt_of_le_of_ne hv.frac1 h1
    obtain ⟨g1, g2⟩ := step_mixed (dt := dt) ho (by rw [capacitance_mixed h0' h1']; exact lt_irrefl _)
    exact ⟨g2, hA.trans g1⟩
  · intro ho hp hdt
    unfold phase at hp
    split_ifs at hp with h0
    rw [hA']
    exact (single _ ho (by linarith) (capacitance_cold h0)).2 hdt
  · intro ho hp hdt
    unfold phase at hp
    split_ifs at hp with h0 h1
    rw [hA']
    exact (single _ ho (by linarith) (capacitance_hot h1)).2 hdt

/-- C48, mixed phases: the temperature of the node differs from the phase-change temperature by one
millionth of the heat flow. -/
theorem c48_plateau (dt p : K) {s : Pcb K} (hv : Valid s) (ho : s.override = false)
    (hp : phase s = .mixed) :
    (Pcb.cycle dt p s).temp - s.tpc = (Pcb.cycle dt p s).power / 1000000 := by
  unfold phase at hp
  split_ifs at hp with h0 h1
  rw [power_mixed ho (lt_of_le_of_ne hv.frac0 (Ne.symm h0)) (lt_of_le_of_ne hv.frac1 h1),
    (cycle_const dt p s).2.2.2.2.2.1]
  field_simp

theorem valid_cycle {dt p : K} {s : Pcb K} (hv : Valid s) (hl : s.leakFlag = false) :
    Valid (Pcb.cycle dt p s) where
  heat := by rw [(cycle_const dt p s).2.2.2.2.1]; exact le_max_right _ _
  hotCp := by rw [(cycle_const dt p s).2.1]; exact hv.hotCp
  coldCp := by rw [(cycle_const dt p s).2.2.1]; exact hv.coldCp
  struct := by rw [(cycle_const dt p s).2.2.2.1]; exact hv.struct
  mass := by rw [(cycle_tight hl).1, mul_comm]; exact le_max_right _ _
  frac0 := (cycle_frac dt p s).1
  frac1 := (cycle_frac dt p s).2
  level := by
    obtain ⟨-, -, -, -, -, h1, h2, -⟩ := cycle_const dt p s
    rw [h1, h2]

/-- C48, one step: with no leak and no override, the heat content after the step is that before plus the
heat put in, except for the heat that the phase change gains or loses.  `e` is the excess of the
temperature. -/
theorem c48_step {dt p : K} {s : Pcb K} (hv : Valid s) (hd : dblEps ≤ dt) (ho : s.override = false)
    (hl : s.leakFlag = false) :
    let t := Pcb.cycle dt p s
    let e := p - s.tpc
    let raw := s.frac + t.power * dt / (1000 * s.mass * s.heat)
    content t = content s + t.power * dt +
      match phase s, phase t with
      | .cold, .cold => 0
      | .hot, .hot => 0
      | .mixed, .mixed => 0
      | .cold, .mixed => - s.struct * e
      | .hot, .mixed => - s.struct * e
      | .cold, .hot => 1000 * s.mass * (s.heat - (s.coldCp - s.hotCp) * e)
      | .hot, .cold => - 1000 * s.mass * (s.heat + (s.hotCp - s.coldCp) * e)
      | .mixed, .hot => (s.struct + 1000 * s.mass * s.hotCp) * e - 1000 * s.mass * s.heat * (raw - 1)
      | .mixed, .cold => (s.struct + 1000 * s.mass * s.coldCp) * e - 1000 * s.mass * s.heat * raw := by
  intro t e raw
  have he := dblEps_pos (K := K)
  have hm : 0 < s.mass := by have := hv.mass; linarith
  have hh : 0 < s.heat := he.trans_le hv.heat
  obtain ⟨k1, k2, k3, k4, k5, k6, k7, -⟩ := cycle_const dt p s
  obtain ⟨m1, -, m3⟩ := cycle_tight (dt := dt) (p := p) hl
  rw [max_eq_left hv.heat] at k5
  rw [max_eq_left (by have := hv.mass; linarith)] at m1
  have hct : content t = match phase t with
      | .cold => (s.struct + 1000 * s.mass * s.coldCp) * e
      | .mixed => 1000 * s.mass * s.heat * t.frac
      | .hot => 1000 * s.mass * s.heat + (s.struct + 1000 * s.mass * s.hotCp) * e := by
    show content (Pcb.cycle dt p s) = _
    unfold content
    rw [k1, k2, k3, k4, k5, k6, m1]
    rfl
  have hcold : 0 < 1000 * s.mass * s.coldCp := by have := hv.coldCp; positivity
  have hhot : 0 < 1000 * s.mass * s.hotCp := by have := hv.hotCp; positivity
  have hfr : t.frac = limitRange 0 (rawFrac dt (solved dt p s)) 1 := m3
  rw [rawFrac_solved hv] at hfr
  have hpt : phase t = if t.frac = 0 then .cold else if t.frac = 1 then .hot else .mixed := rfl
  by_cases c0 : s.frac = 0
  · have hps : phase s = .cold := by unfold phase; rw [if_pos c0]
    have hcs : content s = (s.struct + 1000 * s.mass * s.coldCp) * (s.temp - s.tpc) := by
      unfold content; rw [hps]
    have hP : t.power * dt = (s.struct + 1000 * s.mass * s.coldCp) * (p - s.temp) := by
      rw [← hv.level]
      exact power_single ho hd (capacitance_cold c0) hv.struct (by linarith)
    rw [hps, hcs, hP, hct]
    by_cases ht : phase t = .mixed
    · rw [ht]
      dsimp only
      have hx : t.frac ≠ 0 ∧ t.frac ≠ 1 := by
        rw [hpt] at ht
        split_ifs at ht with h1 h2
        exact ⟨h1, h2⟩
      by_cases hgt : p > s.tpc
      · rw [if_pos ⟨c0, hgt⟩] at hfr
        have : t.frac = s.coldCp * (p - s.tpc) / s.heat := by
          have hpos : 0 ≤ s.coldCp * (p - s.tpc) / s.heat :=
            div_nonneg (mul_nonneg hv.coldCp.le (by linarith)) hh.le
          rcases le_total (s.coldCp * (p - s.tpc) / s.heat) 1 with h | h
          · rw [hfr, limit_id hpos h]
          · rw [limit_high h] at hfr; exact absurd hfr hx.2
        rw [this]
        show _ = _ + - s.struct * (p - s.tpc)
        field_simp
        ring
      · rw [if_neg (fun h => hgt h.2), if_neg (fun h => zero_ne_one (c0.symm.trans h.1)),
          if_neg (fun h => h.1.ne' c0), c0, limit_id le_rfl zero_le_one] at hfr
        exact absurd hfr hx.1
    · cases hpc : phase t
      · dsimp only
        show _ * (p - s.tpc) = _
        ring
      · exact absurd hpc ht
      · dsimp only
        show _ + _ * (p - s.tpc) = _ + _ * (_ - _ * (p - s.tpc))
        ring
  by_cases c1 : s.frac = 1
  · have hps : phase s = .hot := by unfold phase; rw [if_neg c0, if_pos c1]
    have hcs : content s = 1000 * s.mass * s.heat +
        (s.struct + 1000 * s.mass * s.hotCp) * (s.temp - s.tpc) := by
      unfold content; rw [hps]
    have hP : t.power * dt = (s.struct + 1000 * s.mass * s.hotCp) * (p - s.temp) := by
      rw [← hv.level]
      exact power_single ho hd (capacitance_hot c1) hv.struct (by linarith)
    rw [hps, hcs, hP, hct]
    by_cases ht : phase t = .mixed
    · rw [ht]
      dsimp only
      have hx : t.frac ≠ 0 ∧ t.frac ≠ 1 := by
        rw [hpt] at ht
        split_ifs at ht with h1 h2
        exact ⟨h1, h2⟩
      rw [if_neg (fun h => c0 h.1)] at hfr
      by_cases hlt : p < s.tpc
      · rw [if_pos ⟨c1, hlt⟩] at hfr
        have : t.frac = 1 + s.hotCp * (p - s.tpc) / s.heat := by
          have hneg : s.hotCp * (p - s.tpc) / s.heat ≤ 0 :=
            div_nonpos_of_nonpos_of_nonneg
              (mul_nonpos_of_nonneg_of_nonpos hv.hotCp.le (by linarith)) hh.le
          rcases le_total 0 (1 + s.hotCp * (p - s.tpc) / s.heat) with h | h
          · rw [hfr, limit_id h (by linarith)]
          · rw [limit_low h] at hfr; exact absurd hfr hx.1
        rw [this]
        show _ = _ + - s.struct * (p - s.tpc)
        field_simp
        ring
      · rw [if_neg (fun h => hlt h.2), if_neg (fun h => h.2.ne c1), c1,
          limit_id zero_le_one le_rfl] at hfr
        exact absurd hfr hx.2
    · cases hpc : phase t
      · dsimp only
        show _ * (p - s.tpc) = _ + _ * (_ + _ * (p - s.tpc))
        ring
      · exact absurd hpc ht
      · dsimp only
        show _ + _ * (p - s.tpc) = _
        ring
  · have hps : phase s = .mixed := by unfold phase; rw [if_neg c0, if_neg c1]
    have hcs : content s = 1000 * s.mass * s.heat * s.frac := by
      unfold content; rw [hps]
    have h0 : 0 < s.frac := lt_of_le_of_ne hv.frac0 (Ne.symm c0)
    have h1 : s.frac < 1 := lt_of_le_of_ne hv.frac1 c1
    rw [if_neg (fun h => c0 h.1), if_neg (fun h => c1 h.1), if_pos ⟨h0, h1⟩] at hfr
    have hfr' : t.frac = limitRange 0 raw 1 := hfr
    have hraw : 1000 * s.mass * s.heat * raw = 1000 * s.mass * s.heat * s.frac + t.power * dt := by
      show _ * (s.frac + t.power * dt / (1000 * s.mass * s.heat)) = _
      field_simp
    rw [hps, hcs, hct]
    cases hpc : phase t
    · dsimp only
      linear_combination hraw
    · dsimp only
      have hx : t.frac ≠ 0 ∧ t.frac ≠ 1 := by
        rw [hpt] at hpc
        split_ifs at hpc with h1 h2
        exact ⟨h1, h2⟩
      have : t.frac = raw := by
        rcases le_total raw 0 with h | h
        · rw [limit_low h] at hfr'; exact absurd hfr' hx.1
        · rcases le_total raw 1 with h' | h'
          · rw [hfr', limit_id h h']
          · rw [limit_high h'] at hfr'; exact absurd hfr' hx.2
      rw [this]
      linear_combination hraw
    · dsimp only
      linear_combination hraw

/-- C48, phases: cold material stays cold up to the phase-change temperature, hot material stays hot down
to it, and a mixture stays mixed while the heat put in changes neither part completely. -/
theorem c48_phase {dt p : K} {s : Pcb K} (hv : Valid s) (hl : s.leakFlag = false) :
    (phase s = .cold → (phase (Pcb.cycle dt p s) = .cold ↔ p ≤ s.tpc)) ∧
    (phase s = .hot → (phase (Pcb.cycle dt p s) = .hot ↔ s.tpc ≤ p)) ∧
    (phase s = .mixed →
      (phase (Pcb.cycle dt p s) = .mixed ↔
        0 < 1000 * s.mass * s.heat * s.frac + (Pcb.cycle dt p s).power * dt ∧
        1000 * s.mass * s.heat * s.frac + (Pcb.cycle dt p s).power * dt < 1000 * s.mass * s.heat)) := by
  have he := dblEps_pos (K := K)
  have hm : 0 < s.mass := by have := hv.mass; linarith
  have hh : 0 < s.heat := he.trans_le hv.heat
  obtain ⟨-, -, hfr⟩ := cycle_tight (dt := dt) (p := p) hl
  rw [rawFrac_solved hv] at hfr
  refine ⟨fun hp => ?_, fun hp => ?_, fun hp => ?_⟩
  · unfold phase at hp
    split_ifs at hp with c0
    have : phase (Pcb.cycle dt p s) = .cold ↔ (Pcb.cycle dt p s).frac = 0 := by
      unfold phase; split_ifs with h1 h2 <;> simp [h1]
    rw [this]
    constructor
    · intro hz
      by_contra hn
      rw [if_pos ⟨c0, not_le.1 hn⟩] at hfr
      have hpos : 0 < s.coldCp * (p - s.tpc) / s.heat :=
        div_pos (mul_pos hv.coldCp (by linarith [not_le.1 hn])) hh
      have : 0 < (Pcb.cycle dt p s).frac := by
        rw [hfr]; unfold limitRange
        exact lt_of_lt_of_le (lt_min hpos one_pos) (le_max_left _ _)
      exact this.ne' hz
    · intro hle
      rw [hfr, if_neg (fun h => absurd h.2 (not_lt.2 hle)),
        if_neg (fun h => zero_ne_one (c0.symm.trans h.1)), if_neg (fun h => h.1.ne' c0), c0,
        limit_id le_rfl zero_le_one]
  · unfold phase at hp
    split_ifs at hp with c0 c1
    have : phase (Pcb.cycle dt p s) = .hot ↔ (Pcb.cycle dt p s).frac = 1 := by
      unfold phase; split_ifs with h1 h2
      · simp [h1]
      · simp [h2]
      · simp [h2]
    rw [this]
    rw [if_neg (fun h => c0 h.1)] at hfr
    constructor
    · intro hz
      by_contra hn
      rw [if_pos ⟨c1, not_le.1 hn⟩] at hfr
      have hneg : s.hotCp * (p - s.tpc) / s.heat < 0 :=
        div_neg_of_neg_of_pos (mul_neg_of_pos_of_neg hv.hotCp (by linarith [not_le.1 hn])) hh
      have : (Pcb.cycle dt p s).frac < 1 := by
        rw [hfr]; unfold limitRange
        exact max_lt (lt_of_le_of_lt (min_le_left _ _) (by linarith)) one_pos
      exact this.ne hz
    · intro hle
      rw [hfr, if_neg (fun h => absurd h.2 (not_lt.2 hle)), if_neg (fun h => h.2.ne c1), c1,
        limit_id zero_le_one le_rfl]
  · unfold phase at hp
    split_ifs at hp with c0 c1
    have h0 : 0 < s.frac := lt_of_le_of_ne hv.frac0 (Ne.symm c0)
    have h1 : s.frac < 1 := lt_of_le_of_ne hv.frac1 c1
    rw [if_neg (fun h => c0 h.1), if_neg (fun h => c1 h.1), if_pos ⟨h0, h1⟩] at hfr
    have : phase (Pcb.cycle dt p s) = .mixed ↔
        (Pcb.cycle dt p s).frac ≠ 0 ∧ (Pcb.cycle dt p s).frac ≠ 1 := by
      unfold phase; split_ifs with h1 h2
      · simp [h1]
      · simp [h2]
      · simp [h1, h2]
    rw [this, hfr]
    obtain ⟨M, hM⟩ : ∃ M, M = 1000 * s.mass * s.heat := ⟨_, rfl⟩
    have hM0 : 0 < M := by rw [hM]; positivity
    rw [← hM]
    obtain ⟨r, hr⟩ : ∃ r, r = s.frac + (Pcb.cycle dt p s).power * dt / M := ⟨_, rfl⟩
    have hr' : M * s.frac + (Pcb.cycle dt p s).power * dt = M * r := by
      rw [hr]; field_simp
    rw [← hr, hr']
    constructor
    · rintro ⟨g0, g1⟩
      have r0 : 0 < r := by
        by_contra hn; exact g0 (limit_low (not_lt.1 hn))
      have r1 : r < 1 := by
        by_contra hn; exact g1 (limit_high (not_lt.1 hn))
      exact ⟨mul_pos hM0 r0, by have := mul_lt_mul_of_pos_left r1 hM0; linarith⟩
    · rintro ⟨g0, g1⟩
      have r0 : 0 < r := (pos_iff_pos_of_mul_pos g0).1 hM0
      have r1 : r < 1 := by
        by_contra hn
        have := mul_le_mul_of_nonneg_left (not_lt.1 hn) hM0.le
        linarith
      rw [limit_id r0.le r1.le]
      exact ⟨r0.ne', r1.ne⟩

/-- C48, the heat balance of a run: as long as the phase stays the same, without a leak or an override, the
heat content is that at the start plus all the heat put in. -/
theorem c48_balance_partial (l : List (Input K)) : ∀ (s : Pcb K), Valid s →
    (∀ i ∈ l, dblEps ≤ i.dt ∧ i.override = false ∧ i.leakFlag = false) →
    (∀ t ∈ states s l, phase t = phase s) → content (final s l) = content s + heatIn s l := by
  induction l with
  | nil => intro s _ _ _; exact (add_zero _).symm
  | cons i l ih =>
    intro s hv hi hp
    obtain ⟨hd, ho, hl⟩ := hi i List.mem_cons_self
    have hv' : Valid { s with
        ext := i.ext
        override := i.override
        leakFlag := i.leakFlag
        leakRate := i.leakRate } :=
      ⟨hv.heat, hv.hotCp, hv.coldCp, hv.struct, hv.mass, hv.frac0, hv.frac1, hv.level⟩
    have hfirst : feed s i ∈ states s (i :: l) := by
      refine List.mem_cons_of_mem _ ?_
      cases l <;> exact List.mem_cons_self
    have hph := hp _ hfirst
    have h1 := ih (feed s i) (valid_cycle hv' hl) (fun j hj => hi j (List.mem_cons_of_mem _ hj))
      (fun t ht => (hp t (List.mem_cons_of_mem _ ht)).trans hph.symm)
    have h2 := c48_step (p := i.p) hv' hd ho hl
    have h3 : content (feed s i) = content s + (feed s i).power * i.dt := by
      have e0 : phase { s with
        ext := i.ext
        override := i.override
        leakFlag := i.leakFlag
        leakRate := i.leakRate } = phase s := rfl
      have e1 : phase (Pcb.cycle i.dt i.p { s with
        ext := i.ext
        override := i.override
        leakFlag := i.leakFlag
        leakRate := i.leakRate }) = phase s := hph
      dsimp only at h2
      rw [e0, e1] at h2
      cases hc : phase s <;> rw [hc] at h2 <;> exact h2.trans (add_zero _)
    show content (final (feed s i) l) = content s + ((feed s i).power * i.dt + heatIn (feed s i) l)
    rw [h1, h3]
    ring

/-- A battery of one kilogram with a structure of 1000 J/K, half of it in the hot phase at 50 degrees above
the phase-change temperature (as entering mixed phase leaves it). -/
def exPcb : Pcb ℚ where
  leakFlag := false
  leakRate := 0
  tpc := 300
  heat := 100
  hotCp := 1
  coldCp := 1
  struct := 1000
  mass := 1
  temp := 350
  frac := 1 / 2
  leak := 0
  ext := fun _ => 0
  sumExt := 0
  adm := 0
  admMatrix := 0
  admUpdate := false
  source := 0
  pot := 350
  override := false
  drop := 0
  flux := 0
  power := 0

/-- A time step of one second without external heat, leak or override. -/
def exPcbInput (p : ℚ) : Input ℚ where
  ext := fun _ => 0
  override := false
  leakFlag := false
  leakRate := 0
  dt := 1
  p := p

theorem exPcb_valid : Valid exPcb := by
  constructor <;> decide +kernel

/-- C48, violated: heat from nothing.  However much heat is asked for, two steps return a battery to the
temperature, fraction and mass it had, and it has given that heat to the network: the cooling step takes
more heat than there is in the mixture, and the excess is not taken from the material. -/
theorem c48_perpetual (E : ℚ) : ∃ p q : ℚ,
    let s' := final exPcb [exPcbInput p, exPcbInput q]
    s'.temp = exPcb.temp ∧ s'.pot = exPcb.pot ∧ s'.frac = exPcb.frac ∧ s'.mass = exPcb.mass ∧
    s'.heat = exPcb.heat ∧ heatIn exPcb [exPcbInput p, exPcbInput q] ≤ - E := by
  obtain ⟨P, hP⟩ : ∃ P, P = max 0 E * 2 + 300000 := ⟨_, rfl⟩
  have hP0 : 300000 ≤ P := by rw [hP]; have := le_max_left (0 : ℚ) E; linarith
  have hPE : 2 * E + 300000 ≤ P := by rw [hP]; have := le_max_right (0 : ℚ) E; linarith
  refine ⟨300 - P / 1000000, 350, ?_⟩
  obtain ⟨t, ht⟩ : ∃ t, t = feed exPcb (exPcbInput (300 - P / 1000000)) := ⟨_, rfl⟩
  obtain ⟨u, hu⟩ : ∃ u, u = feed t (exPcbInput 350) := ⟨_, rfl⟩
  show (feed (feed _ _) _).temp = _ ∧ (feed (feed _ _) _).pot = _ ∧ (feed (feed _ _) _).frac = _ ∧
    (feed (feed _ _) _).mass = _ ∧ (feed (feed _ _) _).heat = _ ∧
    (feed _ _).power * 1 + ((feed (feed _ _) _).power * 1 + 0) ≤ -E
  rw [← ht, ← hu]
  have hv := exPcb_valid
  have ht' : t = Pcb.cycle 1 (300 - P / 1000000) exPcb := ht
  have htv : Valid t := by rw [ht']; exact valid_cycle hv rfl
  obtain ⟨a1, a2, a3, a4, a5, a6, a7, a8⟩ := cycle_const 1 (300 - P / 1000000) exPcb
  rw [← ht'] at a1 a2 a3 a4 a5 a6 a7 a8
  have hpow : t.power = - P := by
    rw [ht', power_mixed rfl (by decide +kernel) (by decide +kernel)]
    show 1000000 * (300 - P / 1000000 - 300) = _
    ring
  obtain ⟨m1, -, m3⟩ := cycle_tight (dt := 1) (p := 300 - P / 1000000) (s := exPcb) rfl
  rw [← ht'] at m1 m3
  rw [rawFrac_solved hv, ← ht', hpow, if_neg (fun h => absurd h.1 (by decide +kernel)),
    if_neg (fun h => absurd h.1 (by decide +kernel)),
    if_pos (by decide +kernel)] at m3
  have hm : t.mass = 1 := by rw [m1]; decide +kernel
  have hh : t.heat = 100 := by rw [a5]; decide +kernel
  have hf : t.frac = 0 := by
    rw [m3]
    apply limit_low
    show 1 / 2 + - P * 1 / (1000 * 1 * 100) ≤ 0
    linarith
  have hu' : u = Pcb.cycle 1 350 { t with
      ext := fun _ => 0
      override := false
      leakFlag := false
      leakRate := 0 } := hu
  have hv2 : Valid { t with
      ext := fun _ => 0
      override := false
      leakFlag := false
      leakRate := 0 } :=
    ⟨htv.heat, htv.hotCp, htv.coldCp, htv.struct, htv.mass, htv.frac0, htv.frac1, htv.level⟩
  obtain ⟨b1, b2, b3, b4, b5, b6, b7, b8⟩ := cycle_const 1 350 { t with
      ext := fun _ => 0
      override := false
      leakFlag := false
      leakRate := 0 }
  obtain ⟨n1, -, n3⟩ := cycle_tight (dt := 1) (p := 350) (s := { t with
      ext := fun _ => 0
      override := false
      leakFlag := false
      leakRate := 0 }) rfl
  rw [rawFrac_solved hv2] at n3
  have hpow2 := power_single (dt := 1) (p := 350) (s := { t with
      ext := fun _ => 0
      override := false
      leakFlag := false
      leakRate := 0 }) rfl (by decide +kernel) (capacitance_cold hf) hv2.struct (by
        show t.struct < t.struct + 1000 * t.mass * t.coldCp
        rw [hm, a3]
        show t.struct < t.struct + 1000 * 1 * 1
        linarith)
  rw [← hu'] at b5 b6 b7 n1 n3 hpow2
  dsimp only at b5 n1 n3 hpow2
  rw [a4, a3, a7, hm] at hpow2
  have hpow2' : u.power * 1 = (1000 + 1000 * 1 * 1) * (350 - (300 - P / 1000000)) := hpow2
  refine ⟨b6, b7, ?_, ?_, ?_, ?_⟩
  · rw [n3, a1, if_pos ⟨hf, by decide +kernel⟩, a3, hh]
    decide +kernel
  · rw [n1, hm]; decide +kernel
  · rw [b5, hh]; decide +kernel
  · rw [hpow]
    linarith

/-- Hypotheses of `c48_balance_partial` and `c48_step`: two steps of a mixture, one watt in and out. -/
example : let l := [exPcbInput (300 + 1 / 10000), exPcbInput (300 - 1 / 5000)]
    Valid exPcb ∧ (∀ i ∈ l, dblEps ≤ i.dt ∧ i.override = false ∧ i.leakFlag = false) ∧
    (∀ t ∈ states exPcb l, phase t = phase exPcb) ∧ heatIn exPcb l = - 100 ∧
    (final exPcb l).frac = 499 / 1000 := by
  refine ⟨exPcb_valid, by decide +kernel, by decide +kernel, by decide +kernel, by decide +kernel⟩

/-- Entering the mixed phase by heating loses the heat of the structure: 20 J went in, 10 J are found. -/
example : let s := { exPcb with frac := 0, temp := 300, pot := 300 }
    let t := Pcb.cycle 1 (300 + 1 / 100) s
    phase s = .cold ∧ phase t = .mixed ∧ t.power = 20 ∧ content t - content s = 10 := by
  decide +kernel

/-- A leak of a tenth of a kilogram per second from a battery with half a kilogram of hot material. -/
example : let t := Pcb.cycle 1 300 { exPcb with leakFlag := true, leakRate := 1 / 10 }
    t.leak = 1 / 10 ∧ t.mass = 9 / 10 ∧ t.frac = 4 / 9 := by
  decide +kernel

/-- C48: `initialize` gives a valid battery, and only refuses data out of range. -/
theorem c48_init (d : PcbData K) (hm : 3 * dblEps ≤ d.mass) :
    (∃ s, Pcb.init d = some s ∧ Valid s ∧ s.temp = d.temp ∧ s.frac = d.frac ∧ s.mass = d.mass) ↔
      dblEps ≤ d.tpc ∧ dblEps ≤ d.heat ∧ dblEps ≤ d.hotCp ∧ dblEps ≤ d.coldCp ∧ dblEps ≤ d.struct ∧
      dblEps ≤ d.temp ∧ 0 ≤ d.frac ∧ d.frac ≤ 1 ∧ 0 ≤ d.leakRate := by
  have he := dblEps_pos (K := K)
  unfold Pcb.init
  split_ifs with h
  · constructor
    · rintro ⟨s, hs, -⟩; exact absurd hs (by simp)
    · rintro ⟨h1, h2, h3, h4, h5, h6, h7, h8, h9⟩
      rcases h with h | h | h | h | h | h | h | h | h
      · exact absurd h1 (not_le.2 h)
      · exact absurd h2 (not_le.2 h)
      · exact absurd h3 (not_le.2 h)
      · exact absurd h4 (not_le.2 h)
      · exact absurd h5 (not_le.2 h)
      · linarith
      · exact absurd h6 (not_le.2 h)
      · exact absurd ⟨h7, h8⟩ h
      · exact absurd h9 (not_le.2 h)
  · push Not at h
    obtain ⟨h1, h2, h3, h4, h5, -, h6, ⟨h7, h8⟩, h9⟩ := h
    refine iff_of_true ⟨_, rfl, ?_, rfl, rfl, rfl⟩ ⟨h1, h2, h3, h4, h5, h6, h7, h8, h9⟩
    exact ⟨h2, he.trans_le h3, he.trans_le h4, he.trans_le h5, hm, h7, h8, rfl⟩

/-- Data that `initialize` accepts. -/
example : (match Pcb.init (⟨false, 0, 300, 100, 1, 1, 1000, 1, 290, 0⟩ : PcbData ℚ) with
    | some s => decide (s.pot = 290 ∧ s.temp = 290 ∧ phase s = .cold ∧ content s = -20000)
    | none => false) = true := by
  decide +kernel

end Gunns.Props
