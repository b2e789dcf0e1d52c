import Verif.Fluid.NodeStep

/-!
# Fluid nodes conserve mass (C32)
-/

set_option linter.unusedSectionVars false

namespace Gunns.Props
open Gunns.Fluid Finset

variable {K : Type _} [Field K] [LinearOrder K] [IsStrictOrderedRing K]

/-- A whole step of a node: `resetFlows`, then the links' calls in any order, then `integrateFlows`. -/
def nodeStep (th : Thermo K) (dt : K) (ops : List (Collect K)) (s : FNode K) : Res (FNode K) :=
  match resetFlows s with
  | .ok s0 => integrateFlows th dt (ops.foldl (Collect.run th) s0)
  | .thrown s0 => .thrown s0

/-- The flows of a step. -/
def flowsOf (dt : K) (ops : List (Collect K)) : Flows K := ⟨dt, inflows ops, outs ops⟩

/-- The node when `integrateFlows` is called. -/
theorem collected {th : Thermo K} {s : FNode K} (hr : Ready s) {dt : K} {ops : List (Collect K)} (hdt : 0 < dt)
    (hin : ∀ a ∈ inflows ops, Addable s.content a) :
    ∃ s0, resetFlows s = .ok s0 ∧ SameState s.content s0.outflow ∧
      let s1 := ops.foldl (Collect.run th) s0
      Ready s1 ∧ s1.content = s.content ∧ s1.volume = s.volume ∧ s1.dampingMass = s.dampingMass ∧
      s1.previousPressure = s.content.pressure ∧ s1.heatFlux = heats ops ∧
      InflowIs (flowsOf dt ops) s1.content s1.inflow ∧
      s1.influx * dt = (flowsOf dt ops).inMass ∧ s1.scheduled * dt = (flowsOf dt ops).outMoles ∧
      (inflows ops ≠ [] → FlowShared s1.inflow) ∧
      s1.inflow.enthalpy * (flowsOf dt ops).inMass = ((inflows ops).map (fun a => a.1.enthalpy * a.2)).sum * dt := by
  obtain ⟨o, h1, h2, -, -⟩ := setState_spec hr.outflow
  have hs0 : resetFlows s = .ok { s with
      influx := 0
      outflux := 0
      scheduled := 0
      inflow := resetState s.inflow
      heatFlux := 0
      previousPressure := s.content.pressure
      outflow := o } := by
    unfold resetFlows
    simp only [h1]
  generalize hs0e : ({ s with
      influx := 0
      outflux := 0
      scheduled := 0
      inflow := resetState s.inflow
      heatFlux := 0
      previousPressure := s.content.pressure
      outflow := o } : FNode K) = s0 at hs0
  have hc0 : s0.content = s.content := by rw [← hs0e]
  have ho0 : s0.outflow = o := by rw [← hs0e]
  have hi0 : s0.inflow = resetState s.inflow := by rw [← hs0e]
  have hv0 : s0.volume = s.volume ∧ s0.dampingMass = s.dampingMass ∧ s0.previousPressure = s.content.pressure ∧
      s0.influx = 0 ∧ s0.scheduled = 0 ∧ s0.heatFlux = 0 := by
    rw [← hs0e]; exact ⟨rfl, rfl, rfl, rfl, rfl, rfl⟩
  obtain ⟨v1, v2, v3, v4, v5, v6⟩ := hv0
  obtain ⟨c1, c2, c3, c4, c5, -⟩ := collect_frame th ops s0
  obtain ⟨d1, d2, d3, d4⟩ := collect_sums th ops s0
  obtain ⟨q, q1, q2⟩ := inflow_is (th := th) (w := flowsOf dt ops) hr.weights hr.inflow hdt hin
  have hq : (ops.foldl (Collect.run th) s0).inflow = q := d4 q (by rw [hi0]; exact q1)
  have hin' : ∀ a ∈ inflows ops, Addable s.inflow a := fun a ha =>
    let t := hin a ha; ⟨hr.inflow.symm.trans t.same, t.mixed, t.shared, t.flow, t.parts⟩
  refine ⟨s0, hs0, by rw [ho0]; exact h2, ?_⟩
  refine ⟨⟨?_, ?_, ?_, ?_, ?_, ?_, ?_, ?_⟩, c1.trans hc0, c3.trans v1, c4.trans v2, c5.trans v3, ?_, ?_, ?_, ?_, ?_, ?_⟩
  · rw [c1, hc0]; exact hr.weights
  · rw [c1, hc0]; exact hr.mixed
  · rw [c1, hc0]; exact hr.content
  · rw [c1, hc0]; exact hr.flow
  · rw [c1, hc0]; exact hr.moles
  · rw [c1, hc0]; exact hr.mass
  · rw [c1, hc0, hq]; exact q2.fluids
  · rw [c1, hc0, c2, ho0]; exact h2.fluids
  · rw [d3, v6, zero_add]
  · rw [c1, hc0, hq]; exact q2
  · rw [d1, v4, zero_add]; rfl
  · rw [d2, v5, zero_add]; rfl
  · intro hne
    obtain ⟨q', h1', -, -, -, -, h6, -⟩ := c31_mix (temp := th.temp) (hr.inflow.weights hr.weights) (inflows ops) hne hin'
    have q1' : addAll th.temp (inflows ops) (resetState s.inflow) = some q := q1
    rw [q1'] at h1'; cases h1'
    rw [hq]; exact h6
  · rw [hq]
    by_cases hne : inflows ops = []
    · unfold Flows.inMass flowsOf; rw [hne]; simp
    · obtain ⟨q', h1', h2', -, h4', -⟩ := c31_mix (temp := th.temp) (hr.inflow.weights hr.weights) (inflows ops) hne hin'
      have q1' : addAll th.temp (inflows ops) (resetState s.inflow) = some q := q1
      rw [q1'] at h1'; cases h1'
      rw [← h4']
      unfold Flows.inMass flowsOf
      rw [← h2']; ring

/-- **C32**. A step of a node with a volume never throws and changes the mass of each constituent, and the total,
by what flows in less what is taken out; `mNetFlux` times the step length is the change; the node holds a
proper mixture again. -/
theorem c32_balance {th : Thermo K} {s : FNode K} {dt : K} {ops : List (Collect K)} (hr : Ready s)
    (hv : 0 < s.volume) (hin : ∀ a ∈ inflows ops, Addable s.content a)
    (hm : Moderate (flowsOf dt ops) s.content) :
    ∃ r, nodeStep th dt ops s = .ok r ∧ Ready r ∧
      r.content.mass = s.content.mass + (flowsOf dt ops).inMass -
        ((flowsOf dt ops).fromContent s.content + (flowsOf dt ops).fromInflow s.content) ∧
      (∀ i, i < s.content.n → (r.content.parts i).mass =
        (s.content.parts i).mass + (flowsOf dt ops).inPart i - (flowsOf dt ops).outPart s.content i) ∧
      r.netFlux * dt = r.content.mass - s.content.mass ∧ SameFluids s.content r.content ∧ r.volume = s.volume := by
  obtain ⟨s0, h1, -, h3⟩ := collected (th := th) hr hm.dt hin
  obtain ⟨g1, g2, g3, -, -, -, g7, g8, g9, -⟩ := h3
  rw [← g2] at hm
  obtain ⟨r, k1, k2, k3, k4, k5, -⟩ := node_step (th := th) g1 hm (by rw [g3]; exact hv) g7 g8 g9
  have hres : nodeStep th dt ops s = .ok r := by unfold nodeStep; rw [h1]; exact k1
  rw [g2] at k3 k4
  exact ⟨r, hres, k2, k3.mass, k3.parts, k4, k3.fluids, k5.trans g3⟩

/-- **C32**. What the links take is what the node loses: fluxes times the molecular weight (and the mass fractions)
of the node's outflow add up to the mass (of each constituent) taken out. If the contents suffice the outflow
was of this composition already before the integration. -/
theorem c32_links_draw {th : Thermo K} {s r : FNode K} {dt : K} {ops : List (Collect K)} (hr : Ready s)
    (hv : 0 < s.volume) (hin : ∀ a ∈ inflows ops, Addable s.content a)
    (hm : Moderate (flowsOf dt ops) s.content) (h : nodeStep th dt ops s = .ok r) (hout : 0 < (outs ops).sum) :
    ((outs ops).map (fun f => f * dt * r.outflow.mweight)).sum =
      (flowsOf dt ops).fromContent s.content + (flowsOf dt ops).fromInflow s.content ∧
    (∀ i, i < s.content.n → ((outs ops).map (fun f => f * dt * r.outflow.mweight * (r.outflow.parts i).massFraction)).sum =
      (flowsOf dt ops).outPart s.content i) ∧
    ((outs ops).sum * dt ≤ s.content.mole → ∃ s0, resetFlows s = .ok s0 ∧ s0.outflow.mweight = r.outflow.mweight ∧
      ∀ i, i < s.content.n → (s0.outflow.parts i).massFraction = (r.outflow.parts i).massFraction) := by
  have hdt : 0 < dt := hm.dt
  have hout' : 0 < (flowsOf dt ops).outMoles := mul_pos hout hdt
  obtain ⟨s0, h1, h2, h3⟩ := collected (th := th) hr hdt hin
  obtain ⟨g1, g2, g3, -, -, -, g7, g8, g9, -⟩ := h3
  rw [← g2] at hm
  obtain ⟨r', k1, k2, k3, k4, -, k6, -⟩ := node_step (th := th) g1 hm (by rw [g3]; exact hv) g7 g8 g9
  have hres : nodeStep th dt ops s = .ok r' := by unfold nodeStep; rw [h1]; exact k1
  rw [h] at hres; cases hres
  obtain ⟨o1, o2, o3⟩ := k6 hout'
  obtain ⟨c0, c1, i0, i1, in0, hmole0, hout0⟩ := share_le g1 hm.toAsked g7
  have hne : (flowsOf dt ops).fromContent (ops.foldl (Collect.run th) s0).content +
      (flowsOf dt ops).fromInflow (ops.foldl (Collect.run th) s0).content ≠ 0 := by
    intro c
    -- nothing taken although something was asked for
    have z1 := mul_nonneg c0 g1.mass
    have z2 := mul_nonneg i0 in0
    have y1 : (flowsOf dt ops).contentShare _ * _ = 0 := le_antisymm (by
      have : (flowsOf dt ops).fromContent (ops.foldl (Collect.run th) s0).content ≤ 0 := by
        have : 0 ≤ (flowsOf dt ops).fromInflow (ops.foldl (Collect.run th) s0).content := z2
        linarith
      exact this) z1
    have y2 : (flowsOf dt ops).inflowShare (ops.foldl (Collect.run th) s0).content * (flowsOf dt ops).inMass = 0 :=
      le_antisymm (by
        have : (flowsOf dt ops).fromInflow (ops.foldl (Collect.run th) s0).content ≤ 0 := by
          have : 0 ≤ (flowsOf dt ops).fromContent (ops.foldl (Collect.run th) s0).content := z1
          linarith
        exact this) z2
    by_cases hm0 : (ops.foldl (Collect.run th) s0).content.mole = 0
    · have hen := hm.enough
      rw [hm0, zero_add] at hen
      have hinm : 0 < (flowsOf dt ops).inMoles (ops.foldl (Collect.run th) s0).content := lt_of_lt_of_le hout' hen
      have hins : (flowsOf dt ops).ins ≠ [] := by
        intro c; rw [(g7.none c).2.2.1] at hinm; exact lt_irrefl _ hinm
      have hinne : (flowsOf dt ops).inMass ≠ 0 := by
        rcases hm.inMass with h | h
        · exact absurd h hins
        · exact (dblEps_pos.trans h).ne'
      have : (flowsOf dt ops).inflowShare (ops.foldl (Collect.run th) s0).content ≠ 0 := by
        unfold Flows.inflowShare
        rw [hm0, min_eq_right hout0, sub_zero]
        exact div_ne_zero hout'.ne' hinm.ne'
      exact mul_ne_zero this hinne y2
    · have hmp : 0 < (ops.foldl (Collect.run th) s0).content.mole := lt_of_le_of_ne hmole0 (Ne.symm hm0)
      have : (flowsOf dt ops).contentShare (ops.foldl (Collect.run th) s0).content ≠ 0 :=
        div_ne_zero (lt_min hout' hmp).ne' hm0
      have hmass : (ops.foldl (Collect.run th) s0).content.mass ≠ 0 := by
        rw [← g1.content.moles]; exact mul_ne_zero hm0 g1.mixed.weight.1.ne'
      exact mul_ne_zero this hmass y1
  obtain ⟨p1, p2⟩ := OutflowIs.weight g1 hm.toAsked g7 o1 hne
  have hmw : (ops.foldl (Collect.run th) s0).content.mweight = s.content.mweight := by rw [g2]
  rw [g2] at p1 p2
  have sum1 : ∀ x : K, ((outs ops).map (fun f => f * dt * x)).sum = (flowsOf dt ops).outMoles * x := by
    intro x
    have : (fun f : K => f * dt * x) = fun f => f * (dt * x) := by funext f; ring
    rw [this, List.sum_map_mul_right, List.map_id']
    show _ = (outs ops).sum * dt * x
    ring
  refine ⟨by rw [sum1]; exact p1, ?_, ?_⟩
  · intro i hi
    have : (fun f : K => f * dt * r.outflow.mweight * (r.outflow.parts i).massFraction) =
        fun f => f * dt * (r.outflow.mweight * (r.outflow.parts i).massFraction) := by funext f; ring
    rw [this, sum1, ← mul_assoc]
    exact p2 i hi
  · intro hle
    have hle' : (flowsOf dt ops).outMoles ≤ s.content.mole := hle
    have hmp : 0 < s.content.mole := lt_of_lt_of_le hout' hle'
    have hfi : (flowsOf dt ops).inflowShare s.content = 0 := by
      unfold Flows.inflowShare; rw [min_eq_left hle', sub_self, zero_div]
    have hcs : (flowsOf dt ops).contentShare s.content * s.content.mole = (flowsOf dt ops).outMoles := by
      unfold Flows.contentShare; rw [min_eq_left hle', div_mul_cancel₀ _ hmp.ne']
    have hMW : r.outflow.mweight = s.content.mweight := by
      have e : (flowsOf dt ops).outMoles * r.outflow.mweight = (flowsOf dt ops).outMoles * s.content.mweight := by
        rw [p1]
        unfold Flows.fromContent Flows.fromInflow
        rw [hfi, zero_mul, add_zero, ← hr.content.moles, ← mul_assoc, hcs]
      exact mul_left_cancel₀ hout'.ne' e
    refine ⟨s0, h1, by rw [h2.mweight, hMW], ?_⟩
    intro i hi
    rw [(h2.parts i hi).1]
    have e := p2 i hi
    unfold Flows.outPart at e
    rw [hfi, zero_mul, add_zero, hr.content.mass i hi, ← hr.content.moles, hMW] at e
    have e2 : (flowsOf dt ops).outMoles * s.content.mweight * (r.outflow.parts i).massFraction =
        (flowsOf dt ops).outMoles * s.content.mweight * (s.content.parts i).massFraction := by
      rw [e, ← hcs]; ring
    exact (mul_left_cancel₀ (mul_ne_zero hout'.ne' hr.mixed.weight.1.ne') e2).symm

/-- **C32**. The order of the links' calls does not matter for what the node holds afterwards. -/
theorem c32_order {th : Thermo K} {s r r' : FNode K} {dt : K} {ops ops' : List (Collect K)} (hp : ops.Perm ops')
    (hr : Ready s) (hv : 0 < s.volume) (hin : ∀ a ∈ inflows ops, Addable s.content a)
    (hm : Moderate (flowsOf dt ops) s.content) (h : nodeStep th dt ops s = .ok r) (h' : nodeStep th dt ops' s = .ok r') :
    r.content.mass = r'.content.mass ∧ ∀ i, i < s.content.n → (r.content.parts i).mass = (r'.content.parts i).mass := by
  have pin : (inflows ops).Perm (inflows ops') := hp.filterMap _
  have pout : (outs ops).Perm (outs ops') := hp.filterMap _
  have e1 : (flowsOf dt ops).inMass = (flowsOf dt ops').inMass := by
    unfold Flows.inMass flowsOf; rw [(pin.map _).sum_eq]
  have e2 : ∀ i, (flowsOf dt ops).inPart i = (flowsOf dt ops').inPart i := by
    intro i; unfold Flows.inPart flowsOf; rw [(pin.map _).sum_eq]
  have e3 : (flowsOf dt ops).outMoles = (flowsOf dt ops').outMoles := by
    unfold Flows.outMoles flowsOf; rw [pout.sum_eq]
  have e4 : (flowsOf dt ops).inMoles s.content = (flowsOf dt ops').inMoles s.content := by
    unfold Flows.inMoles; simp only [e2]
  have e5 : (flowsOf dt ops).contentShare s.content = (flowsOf dt ops').contentShare s.content := by
    unfold Flows.contentShare; rw [e3]
  have e6 : (flowsOf dt ops).inflowShare s.content = (flowsOf dt ops').inflowShare s.content := by
    unfold Flows.inflowShare; rw [e3, e4]
  have e7 : (flowsOf dt ops).fromContent s.content = (flowsOf dt ops').fromContent s.content := by
    unfold Flows.fromContent; rw [e5]
  have e8 : (flowsOf dt ops).fromInflow s.content = (flowsOf dt ops').fromInflow s.content := by
    unfold Flows.fromInflow; rw [e6, e1]
  have e9 : ∀ i, (flowsOf dt ops).outPart s.content i = (flowsOf dt ops').outPart s.content i := by
    intro i; unfold Flows.outPart; rw [e5, e6, e2]
  have hm' : Moderate (flowsOf dt ops') s.content := by
    refine ⟨⟨hm.dt, fun f hf => hm.outs f (pout.mem_iff.2 hf), ?_, ?_, ?_, ?_⟩, ?_, ?_⟩
    · rw [← e3, ← e4]; exact hm.enough
    · rcases hm.inMass with h | h
      · left
        have h0 : inflows ops = [] := h
        rw [h0] at pin
        exact pin.symm.eq_nil
      · right; rw [← e1]; exact h
    · rw [← e7]; exact hm.fromContent
    · rw [← e8, ← e6]; simp only [← e2]; exact hm.fromInflow
    · have := hm.left
      unfold Flows.left at this ⊢
      rw [← e1, ← e7, ← e8]; exact this
    · have := hm.parts
      unfold Flows.left Flows.leftPart at this ⊢
      simp only [← e1, ← e7, ← e8, ← e2, ← e9]; exact this
  obtain ⟨x, x1, -, x3, x4, -⟩ := c32_balance (th := th) hr hv hin hm
  obtain ⟨y, y1, -, y3, y4, -⟩ := c32_balance (th := th) hr hv (fun a ha => hin a (pin.mem_iff.2 ha)) hm'
  rw [h] at x1; cases x1
  rw [h'] at y1; cases y1
  refine ⟨by rw [x3, y3, e1, e7, e8], fun i hi => by rw [x4 i hi, y4 i hi, e2, e9]⟩

/-- **C32**. The heat of the contents changes by the heat collected less that of what is taken out, for a node
without thermal damping and expansion and fluids whose specific heat and temperature functions are
consistent; fluid taken from the contents leaves with their heat. -/
theorem c32_energy {th : Thermo K} {s r : FNode K} {dt : K} {ops : List (Collect K)} (hr : Ready s)
    (hv : 0 < s.volume) (hin : ∀ a ∈ inflows ops, Addable s.content a) (hm : Moderate (flowsOf dt ops) s.content)
    (h : nodeStep th dt ops s = .ok r) (hd : s.dampingMass ≤ 0) (he : th.expansion s.content.pressure s.content = 0)
    (hth : ∀ x, th.heat (fractions r.content) (fun i => (r.content.parts i).moleFraction)
      (th.temp (fractions r.content) x) * th.temp (fractions r.content) x = x)
    (hE : dblEps ≤ s.content.mass * s.content.enthalpy + r.netHeat * dt) :
    r.content.mass * r.content.enthalpy - s.content.mass * s.content.enthalpy = r.netHeat * dt ∧
    (∃ hIn, hIn * (flowsOf dt ops).inMass = ((inflows ops).map (fun a => a.1.enthalpy * a.2)).sum * dt ∧
      r.netHeat * dt = heats ops * dt - (s.content.enthalpy * (flowsOf dt ops).fromContent s.content +
        hIn * (flowsOf dt ops).fromInflow s.content)) ∧
    (0 < (outs ops).sum → r.outflow.enthalpy * r.outflow.flowRate * dt =
      s.content.enthalpy * (flowsOf dt ops).fromContent s.content +
        r.content.enthalpy * (flowsOf dt ops).fromInflow s.content) := by
  have hdt : 0 < dt := hm.dt
  obtain ⟨s0, h1, h2, h3⟩ := collected (th := th) hr hdt hin
  obtain ⟨g1, g2, g3, g4, g5, g6, g7, g8, g9, -, g11⟩ := h3
  rw [← g2] at hm
  obtain ⟨r', k1, k2, k3, k4, -, k6, -, k7, hh, k8, k9⟩ := node_step (th := th) g1 hm (by rw [g3]; exact hv) g7 g8 g9
  have hres : nodeStep th dt ops s = .ok r' := by unfold nodeStep; rw [h1]; exact k1
  rw [h] at hres; cases hres
  rw [hth] at k8
  have k9' := k9 (by rw [g4]; exact hd) (by rw [g5, g2]; exact he) (by rw [g2]; exact hE)
  rw [g2] at k9' k7
  rw [g6] at k7
  refine ⟨?_, ⟨_, g11, k7⟩, ?_⟩
  · rw [k8, mul_comm, k9']
    show _ + _ * dt - _ = _
    ring
  · intro hout
    obtain ⟨o1, -⟩ := k6 (mul_pos hout hdt)
    have := o1.heat
    rw [g2] at this
    exact this

/-- **C32**. A node without volume passes on the fluid that flows in: what links take has the composition of the
inflow, and if the moles asked for are those that flow in then each constituent leaves as it came; its contents take
the heat collected. -/
theorem c32_no_volume {th : Thermo K} {s : FNode K} {dt : K} {ops : List (Collect K)} (hr : Ready s)
    (hv : ¬ 0 < s.volume) (hmole : s.content.mole = 0) (hin : ∀ a ∈ inflows ops, Addable s.content a)
    (hne : inflows ops ≠ []) (hm : Asked (flowsOf dt ops) s.content) (hout : 0 < (outs ops).sum)
    (hp : ∀ i, i < s.content.n → (flowsOf dt ops).inPart i = 0 ∨
      dblEps * dblEps * (flowsOf dt ops).inMass ≤ (flowsOf dt ops).inPart i) :
    ∃ r, nodeStep th dt ops s = .ok r ∧ r.content.mass = s.content.mass ∧
      (∀ i, i < s.content.n → (r.content.parts i).massFraction * (flowsOf dt ops).inMass = (flowsOf dt ops).inPart i) ∧
      (flowsOf dt ops).outMoles * r.outflow.mweight = (flowsOf dt ops).inflowShare s.content * (flowsOf dt ops).inMass ∧
      (∀ i, i < s.content.n → (flowsOf dt ops).outMoles * r.outflow.mweight * (r.outflow.parts i).massFraction =
        (flowsOf dt ops).inflowShare s.content * (flowsOf dt ops).inPart i) ∧
      ((flowsOf dt ops).outMoles = (flowsOf dt ops).inMoles s.content →
        (flowsOf dt ops).inflowShare s.content = 1 ∧ r.netFlux = 0) ∧
      r.content.pressure = s.content.pressure ∧
      r.outflow.enthalpy * r.outflow.flowRate * dt = r.content.enthalpy * (flowsOf dt ops).fromInflow s.content ∧
      ((∀ f g x, th.heat f g (th.temp f x) * th.temp f x = x) →
        r.content.enthalpy * (flowsOf dt ops).inMass = heats ops * dt) := by
  have hdt : 0 < dt := hm.dt
  have hout' : 0 < (flowsOf dt ops).outMoles := mul_pos hout hdt
  obtain ⟨s0, h1, h2, h3⟩ := collected (th := th) hr hdt hin
  obtain ⟨g1, g2, g3, -, -, g6, g7, g8, g9, g10, -⟩ := h3
  rw [← g2] at hm hp hmole
  obtain ⟨r, k1, k2, -, -, -, -, k7, k8, t1, t2, t3, k9, -⟩ := node_step_no_volume (th := th) g1 hm (by rw [g3]; exact hv) hmole
    hne g7 (g10 hne) g8 g9 hout' hp
  have hres : nodeStep th dt ops s = .ok r := by unfold nodeStep; rw [h1]; exact k1
  have hmass : (ops.foldl (Collect.run th) s0).content.mass = 0 := by rw [← g1.content.moles, hmole, zero_mul]
  have hfc : (flowsOf dt ops).fromContent (ops.foldl (Collect.run th) s0).content = 0 := by
    unfold Flows.fromContent; rw [hmass, mul_zero]
  have hin1 : dblEps < (flowsOf dt ops).inMass := by
    rcases hm.inMass with h | h
    · exact absurd h hne
    · exact h
  have hin0 : 0 < (flowsOf dt ops).inMass := dblEps_pos.trans hin1
  obtain ⟨q1, q2, q3⟩ := g7.some hne
  have hinMoles : 0 < (flowsOf dt ops).inMoles (ops.foldl (Collect.run th) s0).content := by
    rw [← q2]; exact div_pos hin0 q1.weight.1
  have hshare : 0 < (flowsOf dt ops).inflowShare (ops.foldl (Collect.run th) s0).content := by
    unfold Flows.inflowShare
    rw [hmole, min_eq_right hout'.le, sub_zero]
    exact div_pos hout' hinMoles
  have hne2 : (flowsOf dt ops).fromContent (ops.foldl (Collect.run th) s0).content +
      (flowsOf dt ops).fromInflow (ops.foldl (Collect.run th) s0).content ≠ 0 := by
    rw [hfc, zero_add]; exact (mul_pos hshare hin0).ne'
  obtain ⟨p1, p2⟩ := OutflowIs.weight g1 hm g7 k9 hne2
  rw [hfc, zero_add] at p1
  have p2' : ∀ i, i < s.content.n → (flowsOf dt ops).outMoles * r.outflow.mweight * (r.outflow.parts i).massFraction =
        (flowsOf dt ops).inflowShare s.content * (flowsOf dt ops).inPart i := by
    intro i hi
    rw [p2 i (by rw [g2]; exact hi)]
    unfold Flows.outPart
    rw [g1.content.mass i (by rw [g2]; exact hi), hmass, mul_zero, mul_zero, zero_add, g2]
  rw [g2] at k2 k7 p1 k8
  have hheat := k9.heat
  rw [hfc, mul_zero, zero_add, g2] at hheat
  refine ⟨r, hres, k2, k7, p1, p2', ?_, by rw [t1, g2], hheat, ?_⟩
  swap
  · intro hth
    rw [t2, hth, g6] at t3
    rw [t3, ← g8]
    have hinf : (ops.foldl (Collect.run th) s0).influx ≠ 0 := by
      intro h0
      rw [h0, zero_mul] at g8
      exact hin0.ne g8
    rw [← mul_assoc, div_mul_cancel₀ _ hinf]
  intro heq
  rw [g2] at hmole hinMoles
  have hs1 : (flowsOf dt ops).inflowShare s.content = 1 := by
    unfold Flows.inflowShare
    rw [hmole, min_eq_right hout'.le, sub_zero, heq, div_self hinMoles.ne']
  refine ⟨hs1, ?_⟩
  unfold Flows.fromInflow at k8
  rw [hs1, one_mul, sub_self] at k8
  rcases mul_eq_zero.1 k8 with h | h
  · exact h
  · exact absurd h hdt.ne'

/-- Steps of a node, one after the other. -/
def nodeRun (th : Thermo K) : List (K × List (Collect K)) → FNode K → Option (FNode K)
  | [], s => some s
  | (dt, ops) :: l, s =>
    match nodeStep th dt ops s with
    | .ok r => nodeRun th l r
    | .thrown _ => none

/-- Every step of a history is moderate, for the state the node is then in. -/
def Moderates (th : Thermo K) : List (K × List (Collect K)) → FNode K → Prop
  | [], _ => True
  | (dt, ops) :: l, s => (∀ a ∈ inflows ops, Addable s.content a) ∧ Moderate (flowsOf dt ops) s.content ∧
    ∀ r, nodeStep th dt ops s = .ok r → Moderates th l r

/-- Mass of a constituent that links take during a history. -/
def takenPart (th : Thermo K) (i : Nat) : List (K × List (Collect K)) → FNode K → K
  | [], _ => 0
  | (dt, ops) :: l, s => (flowsOf dt ops).outPart s.content i +
    (match nodeStep th dt ops s with | .ok r => takenPart th i l r | .thrown _ => 0)

/-- **C32**. Over any number of steps the mass of each constituent changes by what was given less what was taken. -/
theorem c32_history {th : Thermo K} (l : List (K × List (Collect K))) {s : FNode K} (hr : Ready s) (hv : 0 < s.volume)
    (hm : Moderates th l s) :
    ∃ r, nodeRun th l s = some r ∧ Ready r ∧
      ∀ i, i < s.content.n → (r.content.parts i).mass = (s.content.parts i).mass +
        (l.map (fun a => (flowsOf a.1 a.2).inPart i)).sum - takenPart th i l s := by
  induction l generalizing s with
  | nil => exact ⟨s, rfl, hr, fun i _ => by simp [takenPart]⟩
  | cons a l ih =>
    obtain ⟨dt, ops⟩ := a
    obtain ⟨h1, h2, h3⟩ := hm
    obtain ⟨r, g1, g2, -, g4, -, g6, g7⟩ := c32_balance (th := th) hr hv h1 h2
    obtain ⟨t, k1, k2, k3⟩ := ih g2 (by rw [g7]; exact hv) (h3 r g1)
    refine ⟨t, by rw [nodeRun, g1]; exact k1, k2, fun i hi => ?_⟩
    rw [k3 i (by rw [← g6.1]; exact hi), g4 i hi, List.map_cons, List.sum_cons, takenPart, g1]
    simp only
    ring

/-! ## A concrete case and the limits -/

/-- Fluids of specific heat one. -/
def plainThermo : Thermo ℚ := { temp := fun _ h => h, enth := fun _ t => t, heat := fun _ _ _ => 1, expansion := fun _ _ => 0 }

/-- A node holding 8 kg, a part `x` of it the lighter constituent. -/
def tank (x mass : ℚ) : FNode ℚ :=
  { content := twoFluids x 0 mass, inflow := twoFluids x 0 0, outflow := twoFluids x 0 0, influx := 0, outflux := 0,
    scheduled := 0, heatFlux := 0, undamped := 0, volume := 1, dampingMass := 0, dampingHeat := 0, previousPressure := 0,
    netHeat := 0, netFlux := 0, through := 0 }

/-- Mass, mass fraction, net flux, net heat, heat of the contents and of the outflow. -/
def tankAfter (r : Res (FNode ℚ)) : Option (List ℚ) :=
  match r with
  | .ok q => some [q.content.mass, (q.content.parts 0).mass, q.netFlux, q.netHeat, q.content.mass * q.content.enthalpy,
      q.outflow.enthalpy * q.outflow.flowRate, q.outflow.mweight]
  | .thrown _ => none

theorem mixed_two {x : ℚ} (f m : ℚ) (hx : 0 ≤ x ∧ x ≤ 1) : Mixed (twoFluids x f m) := by
  have hp : 0 < x / 2 + (1 - x) / 4 := by linarith [hx.1, hx.2]
  have h1 : 0 ≤ 1 - x := by linarith [hx.2]
  have two : ∀ i, i < 2 → i = 0 ∨ i = 1 := by intro i hi; omega
  refine ⟨?_, ?_, ?_, ?_⟩
  · intro i hi
    rcases two i hi with rfl | rfl
    · exact ⟨hx.1, by show 0 ≤ x / 2 / _; have := hx.1; positivity⟩
    · exact ⟨h1, by show 0 ≤ (1 - x) / 4 / _; positivity⟩
  · show |∑ i ∈ range 2, _ - 1| ≤ fltEps
    rw [Finset.sum_range_succ, Finset.sum_range_one]
    show |x + (1 - x) - 1| ≤ fltEps
    rw [show x + (1 - x) - 1 = 0 by ring, abs_zero]; exact fltEps_pos.le
  · show |∑ i ∈ range 2, _ - 1| ≤ fltEps
    rw [Finset.sum_range_succ, Finset.sum_range_one]
    show |x / 2 / (x / 2 + (1 - x) / 4) + (1 - x) / 4 / (x / 2 + (1 - x) / 4) - 1| ≤ fltEps
    rw [← add_div, div_self hp.ne', sub_self, abs_zero]; exact fltEps_pos.le
  · refine ⟨by show 0 < 1 / _; positivity, ?_⟩
    intro i hi
    rcases two i hi with rfl | rfl
    · show x / 2 / (x / 2 + (1 - x) / 4) * 2 = x * (1 / (x / 2 + (1 - x) / 4)); ring
    · show (1 - x) / 4 / (x / 2 + (1 - x) / 4) * 4 = (1 - x) * (1 / (x / 2 + (1 - x) / 4)); ring

theorem ready_tank {x m : ℚ} (hx : 0 ≤ x ∧ x ≤ 1) (hm : 0 ≤ m) : Ready (tank x m) := by
  have hp : 0 < x / 2 + (1 - x) / 4 := by linarith [hx.1, hx.2]
  have two : ∀ i, i < 2 → i = 0 ∨ i = 1 := by intro i hi; omega
  refine ⟨goodWeights_two _ _ _, mixed_two _ _ hx, ⟨fun i _ => rfl, ?_, ?_⟩, fun i _ => rfl, ?_, hm, ⟨rfl, fun i _ => ⟨rfl, rfl⟩⟩,
    ⟨rfl, fun i _ => ⟨rfl, rfl⟩⟩⟩
  · intro i hi
    rcases two i hi with rfl | rfl
    · show x * m / 2 * 2 = x * m; ring
    · show (1 - x) * m / 4 * 4 = (1 - x) * m; ring
  · show m * (x / 2 + (1 - x) / 4) * (1 / (x / 2 + (1 - x) / 4)) = m
    rw [mul_one_div, mul_div_assoc, div_self hp.ne', mul_one]
  · show ∑ i ∈ range 2, _ = _
    rw [Finset.sum_range_succ, Finset.sum_range_one]
    show x / 2 / (x / 2 + (1 - x) / 4) + (1 - x) / 4 / (x / 2 + (1 - x) / 4) = 1
    rw [← add_div, div_self hp.ne']

/-- What two links do to the node: one gives 2 kg/s of fluid, the other takes one mole per second. -/
def tankOps : List (Collect ℚ) := [.inflow (twoFluids (1/4) 3 0) 2, .schedule 1, .heat 5]

/-- Non-vacuity: the hypotheses of the theorems hold for a tank of 8 kg and these calls. -/
example : (∀ a ∈ inflows tankOps, Addable (tank (1/2) 8).content a) ∧
    Moderate (flowsOf (1/2) tankOps) (tank (1/2) 8).content := by
  have two : ∀ i, i < 2 → i = 0 ∨ i = 1 := by intro i hi; omega
  constructor
  · intro a ha
    have : a = (twoFluids (1/4) 3 0, 2) := by simpa [inflows, tankOps] using ha
    subst this
    refine ⟨⟨rfl, fun i _ => ⟨rfl, rfl⟩⟩, mixed_two _ _ (by norm_num), fun i _ => rfl, ?_, ?_⟩
    · simp only [dblEps]; norm_num
    · intro i hi
      right
      rcases two i hi with rfl | rfl <;> (simp only [twoFluids, minFlowRate, dblEps]; norm_num [abs_of_pos])
  · refine ⟨⟨by decide +kernel, by decide +kernel, by decide +kernel, by decide +kernel, by decide +kernel, by decide +kernel⟩,
      by decide +kernel, by decide +kernel⟩

/-- Half a mole leaves and one kilogram flows in. -/
example : tankAfter (nodeStep plainThermo (1/2) tankOps (tank (1/2) 8)) =
    some [23 / 3, 4 - 2 / 3 + 1 / 4, -2 / 3, 2005 - 8000 / 3, 8000 + 2005 / 2 - 4000 / 3, 8000 / 3, 8 / 3] := by decide +kernel

/-- **C32** (limit). If more is asked for than the contents and the inflow hold, the node loses what it holds, but
links take flux times molecular weight: mass is created. Here 3 moles of the 4 that links take are not there. -/
theorem c32_shortage : (tankAfter (nodeStep plainThermo 1 [.schedule 4] (tank 1 2))).map (fun l => l.take 3) =
      some [dblEps, dblEps, -2] ∧
    (match nodeStep plainThermo 1 [.schedule 4] (tank 1 2) with
      | .ok q => some (4 * q.outflow.mweight) | .thrown _ => none) = some 8 := by decide +kernel

/-- **C32** (limit). A flow of at most `DBL_EPSILON` into a node in a step does not change the composition: here the
heavier constituent flows in and the mass of the lighter one grows. -/
theorem c32_small_inflow :
    (tankAfter (nodeStep plainThermo (1/2) [.inflow (twoFluids 0 0 0) dblEps] (tank 1 1))).map (fun l => l.take 2) =
      some [1 + dblEps / 2, 1 + dblEps / 2] := by decide +kernel

/-- **C32** (limit). When a node is drained by less than `DBL_EPSILON` kg/s the integration throws. -/
theorem c32_slow_drain_throws {th : Thermo K} {dt : K} {s : FNode K} (h0 : 0 < (amounts dt s).outContent)
    (h1 : (amounts dt s).outContent < dblEps) (hf : |s.content.flowRate| < dblEps) :
    ∃ r, integrateFlows th dt s = .thrown r ∧ r.content = s.content := by
  have key : ∃ o, startOutflow th (amounts dt s) s = .thrown o := by
    unfold startOutflow
    rw [if_pos h0]
    have : ∃ o, addState th.temp s.content (amounts dt s).outContent (resetState s.outflow) = .thrown o := by
      unfold addState
      cases sameTypes (resetState s.outflow) s.content with
      | false => exact ⟨_, rfl⟩
      | true =>
        have e2 : |(resetState s.outflow).flowRate + sourceFlow s.content (amounts dt s).outContent| < dblEps := by
          unfold sourceFlow
          rw [if_pos (by rw [abs_of_pos h0]; exact h1)]
          show |0 + _| < _
          rw [zero_add]; exact hf
        simp only [Bool.not_true, Bool.false_eq_true, if_false, if_pos e2]
        exact ⟨_, rfl⟩
    obtain ⟨o, ho⟩ := this
    exact ⟨o, by simp only [ho]⟩
  obtain ⟨o, ho⟩ := key
  exact ⟨{ s with
      dampingHeat := 0
      outflow := o }, by unfold integrateFlows; simp only [ho], rfl⟩

/-- A drained node: `DBL_EPSILON` kg are left, one mole is asked for in a step of two seconds, and the step
throws. -/
example : tankAfter (nodeStep plainThermo 2 [.schedule 1] (tank 1 dblEps)) = none := by decide +kernel

/-- **C32** (limit). Fluid that flows through a node leaves with the enthalpy of the new contents, but the heat
balance subtracts that of the inflow: heating a node that overflows creates energy. Here 3000 J are held,
6 kg of 1000 J/kg flow in, 600 J are added, 5 kg flow out, and 9900 J are there in the end instead of 9600 J. -/
theorem c32_overflow_heat : tankAfter (nodeStep plainThermo 1
      [.inflow (twoFluids 1 1 0) 6, .schedule (5/2), .heat 600] (tank 1 3)) =
    some [4, 4, 1, 600 + 1000, 4600, 3000 + 1150 * 2, 2] := by decide +kernel

end Gunns.Props
