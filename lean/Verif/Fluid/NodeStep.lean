import Verif.Fluid.NodeLemmas

/-!
# A step of a fluid node
-/

set_option linter.unusedSectionVars false

namespace Gunns.Fluid
open Gunns.Props Finset

variable {K : Type _} [Field K] [LinearOrder K] [IsStrictOrderedRing K]

theorem OutflowIs.weight {w : Flows K} {s : FNode K} {o : Poly K} {e : K} (hr : Ready s) (hm : Asked w s.content)
    (hq : InflowIs w s.content s.inflow)
    (h : OutflowIs s.content o w.dt (w.fromContent s.content + w.fromInflow s.content) (w.outPart s.content) e)
    (hne : w.fromContent s.content + w.fromInflow s.content ≠ 0) :
    w.outMoles * o.mweight = w.fromContent s.content + w.fromInflow s.content ∧
    ∀ i, i < s.content.n → w.outMoles * o.mweight * (o.parts i).massFraction = w.outPart s.content i := by
  have hdt := hm.dt
  obtain ⟨h1, h2, h3⟩ := h.some hne
  have hMWc := hr.mixed.weight.1
  have hpos : 0 < o.mweight := h1.weight.1
  obtain ⟨-, -, -, -, -, hmole0, hout0⟩ := share_le hr hm hq
  have hc : ∑ i ∈ range s.content.n, w.contentShare s.content * (s.content.parts i).mass / s.content.mw i =
      min w.outMoles s.content.mole := by
    have e : ∀ i, i < s.content.n → w.contentShare s.content * (s.content.parts i).mass / s.content.mw i =
        w.contentShare s.content * s.content.mole * (s.content.parts i).moleFraction := by
      intro i hi
      have hw := (hr.weights.pos hi).ne'
      rw [div_eq_iff hw, hr.content.mass i hi, ← hr.content.moles]
      have := hr.mixed.weight.2 i hi
      linear_combination (- w.contentShare s.content * s.content.mole) * this
    rw [Finset.sum_congr rfl (fun i hi => e i (mem_range.1 hi)), ← Finset.mul_sum, hr.moles, mul_one]
    unfold Flows.contentShare
    by_cases h0 : s.content.mole = 0
    · rw [h0, mul_zero, min_eq_right hout0]
    · exact div_mul_cancel₀ _ h0
  have hin0 : 0 ≤ w.inMoles s.content := Finset.sum_nonneg (fun i hi =>
    div_nonneg (hq.nonneg i (mem_range.1 hi)) (hr.weights.pos (mem_range.1 hi)).le)
  have hi : ∑ i ∈ range s.content.n, w.inflowShare s.content * w.inPart i / s.content.mw i =
      w.outMoles - min w.outMoles s.content.mole := by
    have e : ∑ i ∈ range s.content.n, w.inflowShare s.content * w.inPart i / s.content.mw i =
        w.inflowShare s.content * w.inMoles s.content := by
      unfold Flows.inMoles
      rw [Finset.mul_sum]
      exact Finset.sum_congr rfl (fun i _ => mul_div_assoc _ _ _)
    rw [e]
    unfold Flows.inflowShare
    by_cases h0 : w.inMoles s.content = 0
    · have he := hm.enough
      rw [h0, add_zero] at he
      rw [h0, mul_zero, min_eq_left he, sub_self]
    · exact div_mul_cancel₀ _ h0
  have hsum : (w.fromContent s.content + w.fromInflow s.content) / o.mweight = w.outMoles := by
    have e1 : (w.fromContent s.content + w.fromInflow s.content) / o.mweight = o.flowRate / o.mweight * w.dt := by
      rw [← h.flow]; ring
    rw [e1, h3, Finset.sum_mul, ← h.fluids.1]
    have e2 : ∑ i ∈ range s.content.n, (o.parts i).flowRate / o.mw i * w.dt =
        ∑ i ∈ range s.content.n, (w.contentShare s.content * (s.content.parts i).mass / s.content.mw i +
          w.inflowShare s.content * w.inPart i / s.content.mw i) := by
      refine Finset.sum_congr rfl (fun i hi => ?_)
      have hi' := mem_range.1 hi
      rw [← (h.fluids.2 i hi').2, div_mul_eq_mul_div, h.parts i hi', ← add_div]
      rfl
    rw [e2, Finset.sum_add_distrib, hc, hi]
    ring
  have hres : w.outMoles * o.mweight = w.fromContent s.content + w.fromInflow s.content := by
    rw [← hsum, div_mul_cancel₀ _ hpos.ne']
  refine ⟨hres, ?_⟩
  intro i hi'
  have e := h2 i (by rw [← h.fluids.1]; exact hi')
  rw [hres, ← h.flow, ← h.parts i hi', e]
  ring

/-- What a step of a node with a volume does. -/
theorem node_step {th : Thermo K} {w : Flows K} {s : FNode K} (hr : Ready s) (hm : Moderate w s.content)
    (hv : 0 < s.volume) (hq : InflowIs w s.content s.inflow) (hi : s.influx * w.dt = w.inMass)
    (ho : s.scheduled * w.dt = w.outMoles) :
    ∃ r, integrateFlows th w.dt s = .ok r ∧ Ready r ∧ ContentIs w s.content r.content ∧
      r.netFlux * w.dt = r.content.mass - s.content.mass ∧ r.volume = s.volume ∧
      (0 < w.outMoles →
        OutflowIs s.content r.outflow w.dt (w.fromContent s.content + w.fromInflow s.content) (w.outPart s.content)
          (s.content.enthalpy * w.fromContent s.content + r.content.enthalpy * w.fromInflow s.content) ∧
        Mixed r.outflow ∧ FlowShared r.outflow) ∧
      (w.fromContent s.content + w.fromInflow s.content = 0 → SameFluids s.content r.outflow ∧
        r.outflow.mweight = r.content.mweight ∧ Mixed r.outflow ∧ FlowShared r.outflow ∧
        ∀ i, i < s.content.n → (r.outflow.parts i).massFraction = (r.content.parts i).massFraction) ∧
      r.netHeat * w.dt = s.heatFlux * w.dt -
        (s.content.enthalpy * w.fromContent s.content + s.inflow.enthalpy * w.fromInflow s.content) ∧
      ∃ h, r.content.enthalpy = th.heat (fractions r.content) (fun i => (r.content.parts i).moleFraction)
          (th.temp (fractions r.content) h) * th.temp (fractions r.content) h ∧
        (s.dampingMass ≤ 0 → th.expansion s.previousPressure s.content = 0 →
          dblEps ≤ s.content.mass * s.content.enthalpy + r.netHeat * w.dt →
          h * r.content.mass = s.content.mass * s.content.enthalpy + r.netHeat * w.dt) := by
  have hdt := hm.dt
  obtain ⟨a1, a2, a3, a4⟩ := amounts_spec hr hm.toAsked hq hi ho
  obtain ⟨c0, c1, i0, i1, in0, hmole0, hout0⟩ := share_le hr hm.toAsked hq
  obtain ⟨o, so1, so2⟩ := startOutflow_spec (th := th) hr hm.toAsked a3
  obtain ⟨d, mc1, mc2⟩ := mixContent_spec hr hm hq hi a1 a2
  set a := amounts w.dt s with ha
  have hfc0 : 0 ≤ w.fromContent s.content := mul_nonneg c0 hr.mass
  have hfi0 : 0 ≤ w.fromInflow s.content := mul_nonneg i0 in0
  unfold integrateFlows
  simp only [← ha, so1, if_pos hv]
  unfold integrateVolume
  set s1 : FNode K := { s with
      dampingHeat := 0
      outflow := o
      netHeat := s.heatFlux - (a.outContent * s.content.enthalpy + a.outThru * s.inflow.enthalpy) } with hs1
  have mc1' : mixContent a w.dt s1 = .ok d := mc1
  simp only [mc1']
  generalize hh : (if 0 < s1.dampingMass then _ else _ : K) + _ = h
  set t := th.temp (fractions d) h with ht
  have hsm := sameMix_setTemperature th t d
  set c' := setTemperature th t d with hc'
  have hcont : ContentIs w s.content c' := by
    refine ⟨mc2.fluids.trans hsm.fluids, hsm.mixed mc2.mixed, hsm.content mc2.content, hsm.flow mc2.flow, ?_, ?_, ?_⟩
    · rw [hsm.n, Finset.sum_congr rfl (fun i hi => (hsm.parts i (mem_range.1 hi)).2.1)]; exact mc2.moles
    · rw [hsm.mass]; exact mc2.mass
    · intro i hi
      rw [(hsm.parts i (by rw [← mc2.fluids.1]; exact hi)).2.2.2.1]; exact mc2.parts i hi
  have hL : 0 < w.left s.content := lt_of_lt_of_le dblEps_pos hm.left
  -- the through flow
  generalize (if 0 < s1.dampingMass ∧ dblEps < w.dt then _ else 0 : K) = x
  have hfin : ∃ q, finishOutflow th a { s1 with
        content := c'
        dampingHeat := x } = .ok q ∧ SameFluids s.content q ∧
      (0 < w.outMoles →
        OutflowIs s.content q w.dt (w.fromContent s.content + w.fromInflow s.content) (w.outPart s.content)
          (s.content.enthalpy * w.fromContent s.content + c'.enthalpy * w.fromInflow s.content) ∧
        Mixed q ∧ FlowShared q) ∧
      (w.fromContent s.content + w.fromInflow s.content = 0 → SameFluids s.content q ∧
        q.mweight = c'.mweight ∧ Mixed q ∧ FlowShared q ∧
        ∀ i, i < s.content.n → (q.parts i).massFraction = (c'.parts i).massFraction) := by
    unfold finishOutflow
    rcases hm.fromInflow with h0 | ⟨h1, h2⟩
    · have hthru : a.outThru = 0 := by rw [a4, h0, zero_div]
      rw [hthru, if_neg (lt_irrefl _)]
      have hthruPart : ∀ i, i < s.content.n → w.inflowShare s.content * w.inPart i = 0 := by
        intro i hi
        have : w.inflowShare s.content * w.inPart i =
            (s.inflow.parts i).massFraction * w.fromInflow s.content := by
          rw [← hq.parts i hi]; unfold Flows.fromInflow; ring
        rw [this, h0, mul_zero]
      by_cases hc : a.outContent ≤ 0
      · rw [if_pos hc]
        have hzero : w.fromContent s.content = 0 := by
          have := (div_nonneg hfc0 hdt.le).antisymm (by rw [← a3]; exact hc)
          have h := this.symm
          rw [div_eq_zero_iff] at h
          rcases h with h | h
          · exact h
          · exact absurd h hdt.ne'
        obtain ⟨X, x1, x2, -, -⟩ := setState_spec (hcont.fluids.symm.trans so2.fluids)
        simp only [hs1]
        rw [x1]
        have x3 := sameState_setPressure x2 c'.pressure
        refine ⟨_, rfl, hcont.fluids.trans x3.fluids, ?_, fun _ => ⟨hcont.fluids.trans x3.fluids, x3.mweight,
          x3.mixed hcont.mixed, x3.flow hcont.flow, fun i hi => (x3.parts i (by rw [← hcont.fluids.1]; exact hi)).1⟩⟩
        · intro hout
          exfalso
          -- nothing taken from either although something was asked for
          have hmin : min w.outMoles s.content.mole = 0 := by
            by_contra hne
            have hm0 : s.content.mole ≠ 0 := by
              intro c; rw [c, min_eq_right hout0] at hne; exact hne rfl
            have : w.contentShare s.content ≠ 0 := div_ne_zero hne hm0
            have hmass : s.content.mass ≠ 0 := by
              rw [← hr.content.moles]; exact mul_ne_zero hm0 hr.mixed.weight.1.ne'
            exact mul_ne_zero this hmass hzero
          have hpos : 0 < w.inMoles s.content := by
            have := hm.enough
            have hm0 : s.content.mole = 0 := by
              rcases le_total w.outMoles s.content.mole with h | h
              · rw [min_eq_left h] at hmin; exact absurd hmin hout.ne'
              · rw [min_eq_right h] at hmin; exact hmin
            rw [hm0, zero_add] at this
            exact lt_of_lt_of_le hout this
          have hins : w.ins ≠ [] := by
            intro c; rw [(hq.none c).2.2.1] at hpos; exact lt_irrefl _ hpos
          have hin : w.inMass ≠ 0 := by
            rcases hm.inMass with h | h
            · exact absurd h hins
            · exact (dblEps_pos.trans h).ne'
          have : w.inflowShare s.content ≠ 0 := by
            unfold Flows.inflowShare
            rw [hmin, sub_zero]
            exact div_ne_zero hout.ne' hpos.ne'
          exact mul_ne_zero this hin h0
      · rw [if_neg hc]
        have hne : w.fromContent s.content ≠ 0 := by
          intro c; rw [a3, c, zero_div] at hc; exact hc (le_refl _)
        obtain ⟨n1, n2, n3⟩ := so2.some hne
        refine ⟨_, rfl, so2.fluids, fun _ => ?_, fun c => ?_⟩
        · refine ⟨⟨by rw [h0, mul_zero, add_zero]; exact so2.heat, ⟨so2.adding.weights, so2.adding.nonneg, so2.adding.parts, so2.adding.sum⟩, so2.fluids, ?_, ?_, ?_⟩,
            ⟨n1.nonneg, n1.massSum, n1.moleSum, n1.weight⟩, n2⟩
          · rw [h0, add_zero]; exact so2.flow
          · intro i hi
            unfold Flows.outPart
            rw [hthruPart i hi, add_zero]; exact so2.parts i hi
          · intro _
            exact ⟨⟨n1.nonneg, n1.massSum, n1.moleSum, n1.weight⟩, n2, n3⟩
        · rw [h0, add_zero] at c; exact absurd c hne
    · have hpos : 0 < w.fromInflow s.content := lt_of_lt_of_le (mul_pos dblEps_pos hdt) h1
      have hthru : 0 < a.outThru := by rw [a4]; exact div_pos hpos hdt
      rw [if_pos hthru]
      -- the contents are all gone, the new contents are what is left of the inflow
      have hsh : w.inflowShare s.content ≠ 0 := by
        intro c; unfold Flows.fromInflow at hpos; rw [c, zero_mul] at hpos; exact lt_irrefl _ hpos
      have hover : s.content.mole ≤ w.outMoles := by
        by_contra hc
        apply hsh
        unfold Flows.inflowShare
        rw [min_eq_left (not_le.1 hc).le, sub_self, zero_div]
      have hall : ∀ x : K, (s.content.mole = 0 → x = 0) → w.contentShare s.content * x = x := by
        intro x hx
        unfold Flows.contentShare
        rw [min_eq_right hover]
        by_cases h : s.content.mole = 0
        · rw [hx h, mul_zero]
        · rw [div_self h, one_mul]
      have hm0 : s.content.mole = 0 → s.content.mass = 0 := by
        intro c; rw [← hr.content.moles, c, zero_mul]
      have hleft : w.left s.content = (1 - w.inflowShare s.content) * w.inMass := by
        unfold Flows.left Flows.fromContent Flows.fromInflow
        rw [hall _ hm0]; ring
      have hleftP : ∀ i, i < s.content.n → w.leftPart s.content i = (1 - w.inflowShare s.content) * w.inPart i := by
        intro i hi
        unfold Flows.leftPart Flows.outPart
        rw [hall _ (fun c => by rw [hr.content.mass i hi, hm0 c, mul_zero])]; ring
      have h1s : (1 - w.inflowShare s.content) ≠ 0 := by
        intro c; rw [hleft, c, zero_mul] at hL; exact lt_irrefl _ hL
      have hinne : w.inMass ≠ 0 := by
        intro c; rw [hleft, c, mul_zero] at hL; exact lt_irrefl _ hL
      have hfrac : ∀ i, i < s.content.n → (c'.parts i).massFraction * w.inMass = w.inPart i := by
        intro i hi
        have e := hcont.content.mass i (by rw [← hcont.fluids.1]; exact hi)
        rw [hcont.parts i hi, hcont.mass, hleft, hleftP i hi] at e
        have : (1 - w.inflowShare s.content) * w.inPart i =
            (1 - w.inflowShare s.content) * ((c'.parts i).massFraction * w.inMass) := by rw [e]; ring
        exact (mul_left_cancel₀ h1s this).symm
      have hf2 : ∀ i, i < s.content.n → w.inflowShare s.content * w.inPart i =
          w.fromInflow s.content * (c'.parts i).massFraction := by
        intro i hi
        rw [← hfrac i hi]; unfold Flows.fromInflow; ring
      obtain ⟨q, g1, g2, g3⟩ := addOut (th := th) so2 hdt (f2 := fun i => w.inflowShare s.content * w.inPart i)
        hcont.fluids hcont.mixed hcont.flow h1 hf2 (by
          intro i hi
          rcases h2 i hi with h | h
          · left
            have := hfrac i hi
            rw [h] at this
            rcases mul_eq_zero.1 this with h' | h'
            · exact h'
            · exact absurd h' hinne
          · right; rw [← hf2 i hi]; exact h)
      have g1' : addState th.temp c' a.outThru o = .ok q := by rw [a4]; exact g1
      simp only [hs1]
      rw [g1']
      have hne : w.fromContent s.content + w.fromInflow s.content ≠ 0 := (add_pos_of_nonneg_of_pos hfc0 hpos).ne'
      obtain ⟨n1, n2, n3⟩ := g2.some hne
      refine ⟨_, rfl, g2.fluids, fun _ => ?_, fun c => absurd c hne⟩
      exact ⟨⟨g2.heat, ⟨g2.adding.weights, g2.adding.nonneg, g2.adding.parts, g2.adding.sum⟩, g2.fluids, g2.flow, g2.parts,
        fun _ => ⟨⟨n1.nonneg, n1.massSum, n1.moleSum, n1.weight⟩, n2, n3⟩⟩,
        ⟨n1.nonneg, n1.massSum, n1.moleSum, n1.weight⟩, n2⟩
  obtain ⟨q, f1, f2, f3, f4⟩ := hfin
  rw [f1]
  refine ⟨_, rfl, ⟨mc2.fluids.trans hsm.fluids |>.weights hr.weights, hcont.mixed, hcont.content, hcont.flow,
    hcont.moles, ?_, ?_, ?_⟩, hcont, ?_, rfl, f3, f4, ?_, h, ?_, ?_⟩
  · show 0 ≤ c'.mass
    rw [hcont.mass]; exact hL.le
  · exact hcont.fluids.symm.trans hr.inflow
  · exact hcont.fluids.symm.trans f2
  · show (s.influx - (a.outContent + a.outThru)) * w.dt = c'.mass - s.content.mass
    rw [hcont.mass, a3, a4, sub_mul, hi, add_mul, div_mul_cancel₀ _ hdt.ne', div_mul_cancel₀ _ hdt.ne']
    unfold Flows.left
    ring
  · show (s.heatFlux - (a.outContent * s.content.enthalpy + a.outThru * s.inflow.enthalpy)) * w.dt = _
    rw [a3, a4]
    field_simp
  · have e1 : fractions c' = fractions d := by
      funext i
      show (if i < d.n then _ else _ : Part K).massFraction = _
      split_ifs <;> rfl
    have e2 : (fun i => (c'.parts i).moleFraction) = (fun i => (d.parts i).moleFraction) := by
      funext i
      show (if i < d.n then _ else _ : Part K).moleFraction = _
      split_ifs <;> rfl
    show c'.enthalpy = th.heat (fractions c') (fun i => (c'.parts i).moleFraction) (th.temp (fractions c') h) *
      th.temp (fractions c') h
    rw [e1, e2, ← ht]
    rfl
  · intro hd he hE
    have hold : max 0 (s.content.mass - a.contentOutMass) + s.influx * w.dt - a.inflowOutMass = w.left s.content := by
      rw [hi, a1, a2, max_eq_right]
      · unfold Flows.left; ring
      · have := mul_le_mul_of_nonneg_right c1 hr.mass
        unfold Flows.fromContent
        linarith
    show h * c'.mass = _
    rw [hcont.mass, ← hh]
    have hd' : ¬ 0 < s1.dampingMass := not_lt.2 hd
    have he' : th.expansion s1.previousPressure s1.content = 0 := he
    rw [if_neg hd', he', mul_zero, zero_div, add_zero]
    unfold mixEnthalpy
    have hold' : max 0 (s1.content.mass - a.contentOutMass) + s1.influx * w.dt - a.inflowOutMass = w.left s.content := hold
    simp only [hold']
    rw [if_neg (not_lt.2 hm.left), if_neg (not_lt.2 hE), div_mul_cancel₀ _ hL.ne']

/-- What a step of a node without volume does. -/
theorem node_step_no_volume {th : Thermo K} {w : Flows K} {s : FNode K} (hr : Ready s) (hm : Asked w s.content)
    (hv : ¬ 0 < s.volume) (hmole : s.content.mole = 0) (hins : w.ins ≠ [])
    (hq : InflowIs w s.content s.inflow) (hqf : FlowShared s.inflow) (hi : s.influx * w.dt = w.inMass)
    (ho : s.scheduled * w.dt = w.outMoles) (hout : 0 < w.outMoles)
    (hp : ∀ i, i < s.content.n → w.inPart i = 0 ∨ dblEps * dblEps * w.inMass ≤ w.inPart i) :
    ∃ r, integrateFlows th w.dt s = .ok r ∧ r.content.mass = s.content.mass ∧ r.content.mole = 0 ∧
      SameFluids s.content r.content ∧ Mixed r.content ∧ FlowShared r.content ∧
      (∀ i, i < s.content.n → (r.content.parts i).massFraction * w.inMass = w.inPart i) ∧
      r.netFlux * w.dt = w.inMass - w.fromInflow s.content ∧
      r.content.pressure = s.content.pressure ∧
      r.content.temperature = th.temp (fractions s.inflow) (s.heatFlux / s.influx) ∧
      r.content.enthalpy = th.heat (fractions s.inflow) (fun i => (s.inflow.parts i).moleFraction) r.content.temperature *
        r.content.temperature ∧
      OutflowIs s.content r.outflow w.dt (w.fromContent s.content + w.fromInflow s.content) (w.outPart s.content)
        (s.content.enthalpy * w.fromContent s.content + r.content.enthalpy * w.fromInflow s.content) ∧
      Ready r ∧ r.volume = s.volume := by
  have hdt := hm.dt
  obtain ⟨a1, a2, a3, a4⟩ := amounts_spec hr hm hq hi ho
  obtain ⟨o, so1, so2⟩ := startOutflow_spec (th := th) hr hm a3
  obtain ⟨c0, c1, i0, i1, in0, hmole0, hout0⟩ := share_le hr hm hq
  have hmass : s.content.mass = 0 := by rw [← hr.content.moles, hmole, zero_mul]
  have hfc : w.fromContent s.content = 0 := by unfold Flows.fromContent; rw [hmass, mul_zero]
  have hin : dblEps < w.inMass := by
    rcases hm.inMass with h | h
    · exact absurd h hins
    · exact h
  have hin0 : 0 < w.inMass := dblEps_pos.trans hin
  obtain ⟨q1, q2, q3⟩ := hq.some hins
  have hinf : 0 < s.influx := by rw [← hi] at hin0; exact pos_of_mul_pos_left hin0 hdt.le
  have hinMoles : 0 < w.inMoles s.content := by rw [← q2]; exact div_pos hin0 q1.weight.1
  have hshare : 0 < w.inflowShare s.content := by
    unfold Flows.inflowShare
    rw [hmole, min_eq_right hout0, sub_zero]
    exact div_pos hout hinMoles
  have hfi : 0 < w.fromInflow s.content := mul_pos hshare hin0
  set a := amounts w.dt s with ha
  unfold integrateFlows
  simp only [← ha, so1, if_neg hv]
  unfold integrateNoVolume
  simp only [if_pos hinf]
  generalize ht : th.temp _ _ = t
  set i1 := setPressure s.content.pressure s.inflow
  have hsm := sameMix_setTemperature th t i1
  set i2 := setTemperature th t i1
  have hmix2 : Mixed i2 := hsm.mixed ⟨q1.nonneg, q1.massSum, q1.moleSum, q1.weight⟩
  have hfl2 : FlowShared i2 := hsm.flow (fun i hi => hqf i hi)
  have hfl : SameFluids s.content i2 := SameFluids.trans (q := i1) ⟨hq.fluids.1, hq.fluids.2⟩ hsm.fluids
  have hfrac : ∀ i, i < s.content.n → (i2.parts i).massFraction * w.inMass = w.inPart i := by
    intro i hi
    rw [(hsm.parts i (by show i < s.inflow.n; rw [← hq.fluids.1]; exact hi)).1]
    exact hq.parts i hi
  have hnorm : (normalizeArray i2.n (fractions i2)).2 = false := by
    have hg : ∀ i, i < i2.n → (if fractions i2 i < dblEps * dblEps then 0 else fractions i2 i) = fractions i2 i := by
      intro i hi
      rw [← hfl.1] at hi
      have e := hfrac i hi
      rcases hp i hi with h | h
      · rw [h] at e
        rcases mul_eq_zero.1 e with e | e
        · have : fractions i2 i = 0 := e
          rw [this]; split_ifs <;> rfl
        · exact absurd e hin0.ne'
      · rw [← e] at h
        have := le_of_mul_le_mul_right h hin0
        exact if_neg (not_lt.2 this)
    have hs' : |total i2.n (fun i => if fractions i2 i < dblEps * dblEps then 0 else fractions i2 i) - 1| ≤ fltEps := by
      rw [total_eq_sum, Finset.sum_congr rfl (fun i hi => hg i (mem_range.1 hi))]
      exact hmix2.massSum
    unfold normalizeArray
    simp only [if_neg (not_lt.2 hs')]
  simp only [hnorm, Bool.false_eq_true, if_false]
  obtain ⟨c, k1, k2, k3, k4⟩ := setState_spec hfl.symm
  simp only [k1]
  have hcfl : SameFluids s.content c := hfl.trans k2.fluids
  have hcfrac : ∀ i, i < s.content.n → (c.parts i).massFraction * w.inMass = w.inPart i := by
    intro i hi
    rw [(k2.parts i (by rw [← hfl.1]; exact hi)).1]; exact hfrac i hi
  unfold finishOutflow
  have hthru : 0 < a.outThru := by rw [a4]; exact div_pos hfi hdt
  simp only [if_pos hthru]
  obtain ⟨g1, g2⟩ := hm.fromInflow.resolve_left hfi.ne'
  have hf2 : ∀ i, i < s.content.n → w.inflowShare s.content * w.inPart i =
      w.fromInflow s.content * (c.parts i).massFraction := by
    intro i hi; rw [← hcfrac i hi]; unfold Flows.fromInflow; ring
  obtain ⟨q, f1, f2, f3⟩ := addOut (th := th) so2 hdt (f2 := fun i => w.inflowShare s.content * w.inPart i)
    hcfl (k2.mixed hmix2) (k2.flow hfl2) g1 hf2 (by
      intro i hi
      rcases g2 i hi with h | h
      · left
        have := hcfrac i hi
        rw [h] at this
        rcases mul_eq_zero.1 this with h' | h'
        · exact h'
        · exact absurd h' hin0.ne'
      · right; rw [← hf2 i hi]; exact h)
  rw [← a4] at f1
  simp only [f1]
  have hpc : c.pressure = s.content.pressure := by
    unfold setState at k1
    split_ifs at k1
    injection k1 with k1
    rw [← k1]; rfl
  have hcm : ∀ i, i < s.content.n → (c.parts i).mass = 0 ∧ (c.parts i).mole * c.mw i = 0 := by
    have hkeep : ∀ i, i < s.content.n → (c.parts i).mass = (s.content.parts i).mass ∧
        (c.parts i).mole = (s.content.parts i).mole := by
      intro i hi
      unfold setState at k1
      split_ifs at k1
      injection k1 with k1
      rw [← k1, each_parts (by exact hi)]
      exact ⟨rfl, rfl⟩
    intro i hi
    obtain ⟨z1, z2⟩ := hkeep i hi
    have z3 : (s.content.parts i).mass = 0 := by rw [hr.content.mass i hi, hmass, mul_zero]
    refine ⟨z1.trans z3, ?_⟩
    rw [z2, ← (hcfl.2 i hi).2, hr.content.mole i hi, z3]
  have hready : ∀ r : FNode K, r.content = c → r.inflow = i2 → SameFluids c r.outflow → Ready r := by
    intro r e1 e2 e3
    refine ⟨?_, ?_, ?_, ?_, ?_, ?_, ?_, ?_⟩
    · rw [e1]; exact hcfl.weights hr.weights
    · rw [e1]; exact k2.mixed hmix2
    · rw [e1]
      refine ⟨fun i hi' => ?_, fun i hi' => ?_, ?_⟩
      · rw [← hcfl.1] at hi'
        rw [(hcm i hi').1, k3, hmass, mul_zero]
      · rw [← hcfl.1] at hi'
        rw [(hcm i hi').2, (hcm i hi').1]
      · rw [k4, k3, hmole, hmass, zero_mul]
    · rw [e1]; exact k2.flow hfl2
    · rw [e1, ← hcfl.1, ← q3]
      refine Finset.sum_congr rfl (fun i hi' => ?_)
      have hi'' := mem_range.1 hi'
      rw [(k2.parts i (by rw [← hfl.1]; exact hi'')).2.1]
      exact (hsm.parts i (by show i < s.inflow.n; rw [← hq.fluids.1]; exact hi'')).2.1
    · rw [e1, k3, hmass]
    · rw [e1, e2]; exact hcfl.symm.trans hfl
    · rw [e1]; exact e3
  refine ⟨_, rfl, k3, k4.trans hmole, hcfl, k2.mixed hmix2, k2.flow hfl2, hcfrac, ?_, hpc, ?_, ?_, ?_, ?_, rfl⟩
  · show (s.influx - (a.outContent + a.outThru)) * w.dt = _
    rw [a3, a4, hfc, zero_div, zero_add, sub_mul, hi, div_mul_cancel₀ _ hdt.ne']
  · exact k2.temperature.trans ht.symm
  · show c.enthalpy = _ * c.temperature
    rw [k2.enthalpy, k2.temperature]
    rfl
  · exact ⟨f2.heat, ⟨f2.adding.weights, f2.adding.nonneg, f2.adding.parts, f2.adding.sum⟩, f2.fluids, f2.flow, f2.parts,
      fun hne => let ⟨n1, n2, n3⟩ := f2.some hne; ⟨⟨n1.nonneg, n1.massSum, n1.moleSum, n1.weight⟩, n2, n3⟩⟩
  · exact hready _ rfl rfl (hcfl.symm.trans ⟨f2.fluids.1, f2.fluids.2⟩)

end Gunns.Fluid
