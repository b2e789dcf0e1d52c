import Verif.Fluid.NodeSpec
import Verif.Props.PolyFluid

/-!
# Facts about fluid nodes
-/

set_option linter.unusedSectionVars false

namespace Gunns.Fluid

open Finset Gunns.Props

variable {K : Type _} [Field K] [LinearOrder K] [IsStrictOrderedRing K]

theorem SameFluids.refl (p : Poly K) : SameFluids p p := ⟨rfl, fun _ _ => ⟨rfl, rfl⟩⟩

theorem SameFluids.symm {p q : Poly K} (h : SameFluids p q) : SameFluids q p :=
  ⟨h.1.symm, fun i hi => let t := h.2 i (by rw [h.1]; exact hi); ⟨t.1.symm, t.2.symm⟩⟩

theorem SameFluids.trans {p q r : Poly K} (h : SameFluids p q) (g : SameFluids q r) : SameFluids p r :=
  ⟨h.1.trans g.1, fun i hi =>
    let t := h.2 i hi; let u := g.2 i (by rw [← h.1]; exact hi); ⟨t.1.trans u.1, t.2.trans u.2⟩⟩

theorem SameFluids.weights {p q : Poly K} (h : SameFluids p q) (hw : GoodWeights p) : GoodWeights q := by
  intro i hi
  rw [← h.1] at hi
  rw [← (h.2 i hi).2]; exact hw i hi

theorem sameTypes_of {p q : Poly K} (h : SameFluids p q) : sameTypes p q = true :=
  sameTypes_iff.2 ⟨h.1, fun i hi => (h.2 i hi).1⟩

/-- Two mixtures with the same composition, amount and flow. -/
structure SameMix (p q : Poly K) : Prop where
  n : q.n = p.n
  types : q.types = p.types
  mw : q.mw = p.mw
  flowRate : q.flowRate = p.flowRate
  mass : q.mass = p.mass
  mole : q.mole = p.mole
  mweight : q.mweight = p.mweight
  parts : ∀ i, i < p.n → (q.parts i).massFraction = (p.parts i).massFraction ∧
    (q.parts i).moleFraction = (p.parts i).moleFraction ∧ (q.parts i).flowRate = (p.parts i).flowRate ∧
    (q.parts i).mass = (p.parts i).mass ∧ (q.parts i).mole = (p.parts i).mole

theorem SameMix.fluids {p q : Poly K} (h : SameMix p q) : SameFluids p q :=
  ⟨h.n.symm, fun i _ => ⟨by rw [h.types], by rw [h.mw]⟩⟩

theorem SameMix.mixed {p q : Poly K} (h : SameMix p q) (g : Mixed p) : Mixed q := by
  refine ⟨?_, ?_, ?_, ?_, ?_⟩
  · intro i hi; rw [h.n] at hi; rw [(h.parts i hi).1, (h.parts i hi).2.1]; exact g.nonneg i hi
  · rw [h.n, Finset.sum_congr rfl (fun i hi => (h.parts i (mem_range.1 hi)).1)]; exact g.massSum
  · rw [h.n, Finset.sum_congr rfl (fun i hi => (h.parts i (mem_range.1 hi)).2.1)]; exact g.moleSum
  · rw [h.mweight]; exact g.weight.1
  · intro i hi; rw [h.n] at hi; rw [(h.parts i hi).1, (h.parts i hi).2.1, h.mweight, h.mw]; exact g.weight.2 i hi

theorem SameMix.flow {p q : Poly K} (h : SameMix p q) (g : FlowShared p) : FlowShared q := by
  intro i hi; rw [h.n] at hi; rw [(h.parts i hi).1, (h.parts i hi).2.2.1, h.flowRate]; exact g i hi

theorem SameMix.content {p q : Poly K} (h : SameMix p q) (g : ContentShared p) : ContentShared q := by
  refine ⟨?_, ?_, ?_⟩
  · intro i hi; rw [h.n] at hi; rw [(h.parts i hi).1, (h.parts i hi).2.2.2.1, h.mass]; exact g.mass i hi
  · intro i hi; rw [h.n] at hi; rw [(h.parts i hi).2.2.2.2, (h.parts i hi).2.2.2.1, h.mw]; exact g.mole i hi
  · rw [h.mole, h.mweight, h.mass]; exact g.moles

theorem sameMix_setTemperature (th : Thermo K) (t : K) (p : Poly K) : SameMix p (setTemperature th t p) := by
  refine ⟨rfl, rfl, rfl, rfl, rfl, rfl, rfl, fun i hi => ?_⟩
  unfold setTemperature
  rw [each_parts (by exact hi)]
  exact ⟨rfl, rfl, rfl, rfl, rfl⟩

/-- The molecular weight of a proper mixture is above the guard. -/
theorem mweight_gt {p : Poly K} (hw : GoodWeights p) (h : Mixed p) : dblEps < p.mweight := by
  have hdb := dblEps_pos (K := K)
  have h1 : 2 * dblEps * ∑ i ∈ range p.n, (p.parts i).moleFraction ≤
      (∑ i ∈ range p.n, (p.parts i).massFraction) * p.mweight := by
    rw [Finset.mul_sum, Finset.sum_mul]
    refine Finset.sum_le_sum (fun i hi => ?_)
    have hi' := mem_range.1 hi
    rw [← h.weight.2 i hi', mul_comm]
    exact mul_le_mul_of_nonneg_left (hw i hi').1 (h.nonneg i hi').2
  have hf : (fltEps : K) ≤ 1 / 4 := by unfold fltEps; norm_num
  have h2 := (abs_le.1 h.moleSum).1
  have h3 := (abs_le.1 h.massSum).2
  have h4 : (∑ i ∈ range p.n, (p.parts i).massFraction) * p.mweight ≤ (5 / 4) * p.mweight :=
    mul_le_mul_of_nonneg_right (by linarith) h.weight.1.le
  have h5 : 2 * dblEps * (3 / 4) ≤ 2 * dblEps * ∑ i ∈ range p.n, (p.parts i).moleFraction :=
    mul_le_mul_of_nonneg_left (by linarith) (by linarith)
  linarith

theorem setFlowRate_self {p : Poly K} (h : FlowShared p) : setFlowRate p.flowRate p = p := by
  unfold setFlowRate Poly.each
  have : (fun i => if i < p.n then { p.parts i with flowRate := (p.parts i).massFraction * p.flowRate } else p.parts i) =
      p.parts := by
    funext i
    split_ifs with hi
    · rw [← h i hi]
    · rfl
  show { p with parts := _ } = p
  rw [this]

/-- A mixture of the same composition and flow as another, but not of the same amount. -/
structure SameState (p q : Poly K) : Prop where
  fluids : SameFluids p q
  flowRate : q.flowRate = p.flowRate
  mweight : q.mweight = p.mweight
  temperature : q.temperature = p.temperature
  enthalpy : q.enthalpy = p.enthalpy
  parts : ∀ i, i < p.n → (q.parts i).massFraction = (p.parts i).massFraction ∧
    (q.parts i).moleFraction = (p.parts i).moleFraction ∧ (q.parts i).flowRate = (p.parts i).flowRate

theorem SameState.mixed {p q : Poly K} (h : SameState p q) (g : Mixed p) : Mixed q := by
  refine ⟨?_, ?_, ?_, ?_, ?_⟩
  · intro i hi; rw [← h.fluids.1] at hi; rw [(h.parts i hi).1, (h.parts i hi).2.1]; exact g.nonneg i hi
  · rw [← h.fluids.1, Finset.sum_congr rfl (fun i hi => (h.parts i (mem_range.1 hi)).1)]; exact g.massSum
  · rw [← h.fluids.1, Finset.sum_congr rfl (fun i hi => (h.parts i (mem_range.1 hi)).2.1)]; exact g.moleSum
  · rw [h.mweight]; exact g.weight.1
  · intro i hi; rw [← h.fluids.1] at hi
    rw [(h.parts i hi).1, (h.parts i hi).2.1, h.mweight, ← (h.fluids.2 i hi).2]; exact g.weight.2 i hi

theorem SameState.flow {p q : Poly K} (h : SameState p q) (g : FlowShared p) : FlowShared q := by
  intro i hi; rw [← h.fluids.1] at hi; rw [(h.parts i hi).1, (h.parts i hi).2.2, h.flowRate]; exact g i hi

theorem setState_spec {src p : Poly K} (h : SameFluids src p) :
    ∃ q, setState src p = .ok q ∧ SameState src q ∧ q.mass = p.mass ∧ q.mole = p.mole := by
  have hty : sameTypes p src = true := sameTypes_of h.symm
  unfold setState
  rw [if_neg (by rw [hty]; simp)]
  refine ⟨_, rfl, ⟨⟨h.1, h.2⟩, rfl, rfl, rfl, rfl, fun i hi => ?_⟩, rfl, rfl⟩
  rw [each_parts (by show i < p.n; rw [← h.1]; exact hi)]
  exact ⟨rfl, rfl, rfl⟩

theorem sameState_setPressure {p q : Poly K} (h : SameState p q) (x : K) : SameState p (setPressure x q) :=
  ⟨h.fluids, h.flowRate, h.mweight, h.temperature, h.enthalpy, h.parts⟩

/-! ## Collecting -/

/-- What collecting leaves alone. -/
theorem collect_frame (th : Thermo K) (ops : List (Collect K)) (s : FNode K) :
    let r := ops.foldl (Collect.run th) s
    r.content = s.content ∧ r.outflow = s.outflow ∧ r.volume = s.volume ∧ r.dampingMass = s.dampingMass ∧
    r.previousPressure = s.previousPressure ∧ r.undamped = s.undamped := by
  induction ops generalizing s with
  | nil => exact ⟨rfl, rfl, rfl, rfl, rfl, rfl⟩
  | cons o ops ih =>
    simp only [List.foldl_cons]
    obtain ⟨h1, h2, h3, h4, h5, h6⟩ := ih (o.run th s)
    rw [h1, h2, h3, h4, h5, h6]
    cases o <;> exact ⟨rfl, rfl, rfl, rfl, rfl, rfl⟩

theorem collect_sums (th : Thermo K) (ops : List (Collect K)) (s : FNode K) :
    let r := ops.foldl (Collect.run th) s
    r.influx = s.influx + ((inflows ops).map (fun a => a.2)).sum ∧
    r.scheduled = s.scheduled + (outs ops).sum ∧ r.heatFlux = s.heatFlux + heats ops ∧
    ∀ q, addAll th.temp (inflows ops) s.inflow = some q → r.inflow = q := by
  induction ops generalizing s with
  | nil =>
    refine ⟨?_, ?_, ?_, ?_⟩
    · simp [inflows]
    · simp [outs]
    · simp [heats]
    · intro q hq
      simp only [inflows, List.filterMap_nil, addAll] at hq
      cases hq; rfl
  | cons o ops ih =>
    simp only [List.foldl_cons]
    obtain ⟨h1, h2, h3, h4⟩ := ih (o.run th s)
    cases o with
    | inflow src rate =>
      have e : inflows (Collect.inflow src rate :: ops) = (src, rate) :: inflows ops := rfl
      refine ⟨?_, ?_, ?_, ?_⟩
      · rw [h1, e, List.map_cons, List.sum_cons]
        show s.influx + rate + _ = _
        ring
      · rw [h2]; rfl
      · rw [h3]
        unfold heats
        rw [List.map_cons, List.sum_cons]
        show s.heatFlux + rate * src.enthalpy + _ = _
        ring
      · intro q hq
        rw [e, addAll] at hq
        apply h4
        show addAll th.temp (inflows ops) (addState th.temp src rate s.inflow).state = some q
        cases hr : addState th.temp src rate s.inflow with
        | ok p => rw [hr] at hq; exact hq
        | thrown p => rw [hr] at hq; cases hq
    | schedule f =>
      refine ⟨h1, ?_, ?_, h4⟩
      · rw [h2]
        have e : outs (Collect.schedule f :: ops) = f :: outs ops := rfl
        rw [e, List.sum_cons]
        show s.scheduled + f + _ = _
        ring
      · rw [h3]; unfold heats; rw [List.map_cons, List.sum_cons]
        show s.heatFlux + _ = s.heatFlux + (0 + _)
        ring
    | heat q =>
      refine ⟨h1, h2, ?_, h4⟩
      rw [h3]; unfold heats; rw [List.map_cons, List.sum_cons]
      show s.heatFlux + q + _ = s.heatFlux + (q + _)
      ring
    | outflux f =>
      refine ⟨h1, h2, ?_, h4⟩
      rw [h3]; unfold heats; rw [List.map_cons, List.sum_cons]
      show s.heatFlux + _ = s.heatFlux + (0 + _)
      ring

/-- What is known of the node's inflow once all is collected. -/
structure InflowIs (w : Flows K) (c q : Poly K) : Prop where
  fluids : SameFluids c q
  flow : q.flowRate * w.dt = w.inMass
  parts : ∀ i, i < c.n → (q.parts i).massFraction * w.inMass = w.inPart i
  some : w.ins ≠ [] → Mixed q ∧ w.inMass / q.mweight = w.inMoles c ∧ ∑ i ∈ range c.n, (q.parts i).moleFraction = 1
  none : w.ins = [] → q.mweight = 0 ∧ w.inMass = 0 ∧ w.inMoles c = 0 ∧ ∀ i, w.inPart i = 0
  nonneg : ∀ i, i < c.n → 0 ≤ w.inPart i

theorem inflow_is {th : Thermo K} {p c : Poly K} {w : Flows K} (hw : GoodWeights c) (hs : SameFluids c p)
    (hdt : 0 < w.dt) (hin : ∀ a ∈ w.ins, Addable c a) :
    ∃ q, addAll th.temp w.ins (resetState p) = some q ∧ InflowIs w c q := by
  have hwp : GoodWeights p := hs.weights hw
  have hin' : ∀ a ∈ w.ins, Addable p a := fun a ha =>
    let t := hin a ha; ⟨hs.symm.trans t.same, t.mixed, t.shared, t.flow, t.parts⟩
  have hnn : ∀ i, i < c.n → 0 ≤ w.inPart i := by
    intro i hi
    refine mul_nonneg (List.sum_nonneg ?_) hdt.le
    intro x hx
    obtain ⟨a, ha, rfl⟩ := List.mem_map.1 hx
    have t := hin a ha
    exact mul_nonneg (dblEps_pos.le.trans t.flow) (t.mixed.nonneg i (by rw [← t.same.1]; exact hi)).1
  by_cases h0 : w.ins = []
  · refine ⟨resetState p, by rw [h0]; rfl, ?_⟩
    have hz : w.inMass = 0 := by unfold Flows.inMass; rw [h0]; simp
    have hz' : ∀ i, w.inPart i = 0 := by intro i; unfold Flows.inPart; rw [h0]; simp
    refine ⟨hs, ?_, ?_, fun c => absurd h0 c, fun _ => ⟨rfl, hz, ?_, hz'⟩, hnn⟩
    · rw [hz]; show (0 : K) * _ = 0; rw [zero_mul]
    · intro i _; rw [hz, hz', mul_zero]
    · unfold Flows.inMoles; simp [hz']
  · obtain ⟨q, h1, h2, h3, -, h5, h6, h7, h8⟩ := c31_mix (temp := th.temp) hwp w.ins h0 hin'
    have hinr : ∀ a ∈ w.ins, Addable (resetState p) a := fun a ha =>
      let t := hin' a ha; ⟨t.same, t.mixed, t.shared, t.flow, t.parts⟩
    obtain ⟨q', k1, -, k3, -⟩ := addAll_spec (temp := th.temp) w.ins (adding_reset hwp) hinr
    rw [h1] at k1; cases k1
    have hcq : SameFluids c q := hs.trans k3
    refine ⟨q, h1, ⟨hcq, ?_, ?_, fun _ => ⟨h5, ?_, ?_⟩, fun c => absurd c h0, hnn⟩⟩
    · rw [h2]; rfl
    · intro i hi
      have e1 := h3 i (by rw [← hs.1]; exact hi)
      have e2 := h6 i (by rw [← hcq.1]; exact hi)
      unfold Flows.inMass Flows.inPart
      rw [← h2, ← e1, e2]; ring
    · unfold Flows.inMass
      rw [← h2, mul_div_right_comm, h8]
      unfold Flows.inMoles
      rw [Finset.sum_mul, ← hcq.1]
      refine Finset.sum_congr rfl (fun i hi => ?_)
      have hi' := mem_range.1 hi
      rw [h3 i (by rw [← hs.1]; exact hi'), ← (hcq.2 i hi').2]
      unfold Flows.inPart
      rw [mul_div_right_comm]
    · rw [hcq.1]; exact h7

/-! ## Amounts -/

theorem amounts_spec {w : Flows K} {s : FNode K} (hr : Ready s) (hm : Asked w s.content)
    (hq : InflowIs w s.content s.inflow) (hi : s.influx * w.dt = w.inMass) (ho : s.scheduled * w.dt = w.outMoles) :
    (amounts w.dt s).contentOutMass = w.fromContent s.content ∧
    (amounts w.dt s).inflowOutMass = w.fromInflow s.content ∧
    (amounts w.dt s).outContent = w.fromContent s.content / w.dt ∧
    (amounts w.dt s).outThru = w.fromInflow s.content / w.dt := by
  have hdt := hm.dt
  have hMW := hr.mixed.weight.1
  have hmoles := hr.content.moles
  have hmole0 : 0 ≤ s.content.mole := by
    have := hr.mass
    rw [← hmoles] at this
    exact nonneg_of_mul_nonneg_left this hMW
  have hout0 : 0 ≤ w.outMoles := mul_nonneg (List.sum_nonneg hm.outs) hdt.le
  have e1 : min w.outMoles s.content.mole * s.content.mweight = w.fromContent s.content := by
    unfold Flows.fromContent Flows.contentShare
    by_cases h : s.content.mole = 0
    · rw [h, min_eq_right hout0]; simp
    · rw [← hmoles]; field_simp
  have e2 : min (if dblEps < s.inflow.mweight then max s.influx 0 * w.dt / s.inflow.mweight else 0)
      (w.outMoles - min w.outMoles s.content.mole) * s.inflow.mweight = w.fromInflow s.content := by
    have ht : w.outMoles - min w.outMoles s.content.mole ≤ w.inMoles s.content := by
      rcases le_total w.outMoles s.content.mole with h | h
      · rw [min_eq_left h, sub_self]
        refine Finset.sum_nonneg (fun i hi => ?_)
        exact div_nonneg (hq.nonneg i (mem_range.1 hi)) (hr.weights.pos (mem_range.1 hi)).le
      · rw [min_eq_right h]; linarith [hm.enough]
    by_cases h0 : w.ins = []
    · obtain ⟨g1, g2, g3, -⟩ := hq.none h0
      rw [g1, mul_zero]
      unfold Flows.fromInflow
      rw [g2, mul_zero]
    · obtain ⟨g1, g2, -⟩ := hq.some h0
      have hgw : GoodWeights s.inflow := hq.fluids.weights hr.weights
      have hgt := mweight_gt hgw g1
      have hpos : 0 < s.inflow.mweight := g1.weight.1
      have hinpos : 0 < w.inMass := by
        rcases hm.inMass with h | h
        · exact absurd h h0
        · exact dblEps_pos.trans h
      have hinf : 0 ≤ s.influx := by
        rw [← hi] at hinpos
        exact (pos_of_mul_pos_left hinpos hdt.le).le
      rw [if_pos hgt, max_eq_left hinf, hi, g2, min_eq_right ht]
      unfold Flows.fromInflow Flows.inflowShare
      rw [← g2]
      field_simp
  unfold amounts
  simp only [ho, if_pos hdt]
  refine ⟨e1, e2, by rw [e1], by rw [e2]⟩

theorem share_le {w : Flows K} {s : FNode K} (hr : Ready s) (hm : Asked w s.content)
    (hq : InflowIs w s.content s.inflow) :
    0 ≤ w.contentShare s.content ∧ w.contentShare s.content ≤ 1 ∧
    0 ≤ w.inflowShare s.content ∧ w.inflowShare s.content ≤ 1 ∧ 0 ≤ w.inMass ∧ 0 ≤ s.content.mole ∧
    0 ≤ w.outMoles := by
  have hMW := hr.mixed.weight.1
  have hmole0 : 0 ≤ s.content.mole := by
    have := hr.mass
    rw [← hr.content.moles] at this
    exact nonneg_of_mul_nonneg_left this hMW
  have hout0 : 0 ≤ w.outMoles := mul_nonneg (List.sum_nonneg hm.outs) hm.dt.le
  have hin0 : 0 ≤ w.inMoles s.content := Finset.sum_nonneg (fun i hi =>
    div_nonneg (hq.nonneg i (mem_range.1 hi)) (hr.weights.pos (mem_range.1 hi)).le)
  have ht : 0 ≤ w.outMoles - min w.outMoles s.content.mole := sub_nonneg.2 (min_le_left _ _)
  have ht2 : w.outMoles - min w.outMoles s.content.mole ≤ w.inMoles s.content := by
    rcases le_total w.outMoles s.content.mole with h | h
    · rw [min_eq_left h, sub_self]; exact hin0
    · rw [min_eq_right h]; linarith [hm.enough]
  refine ⟨div_nonneg (le_min hout0 hmole0) hmole0, div_le_one_of_le₀ (min_le_right _ _) hmole0,
    div_nonneg ht hin0, div_le_one_of_le₀ ht2 hin0, ?_, hmole0, hout0⟩
  rcases hm.inMass with h | h
  · exact (hq.none h).2.1.ge
  · exact (dblEps_pos.trans h).le

/-! ## Outflow and mixing -/

/-- What is known of a mixture that collects outflows. -/
structure OutflowIs (c o : Poly K) (dt mass : K) (part : Nat → K) (heat : K) : Prop where
  heat : o.enthalpy * o.flowRate * dt = heat
  adding : Adding o
  fluids : SameFluids c o
  flow : o.flowRate * dt = mass
  parts : ∀ i, i < c.n → (o.parts i).flowRate * dt = part i
  some : mass ≠ 0 → Mixed o ∧ FlowShared o ∧ o.flowRate / o.mweight = ∑ i ∈ range o.n, (o.parts i).flowRate / o.mw i

theorem addOut {th : Thermo K} {c o : Poly K} {dt m1 q1 : K} {f1 : Nat → K} (h : OutflowIs c o dt m1 f1 q1) (hdt : 0 < dt)
    {src : Poly K} {m2 : K} {f2 : Nat → K} (hs : SameFluids c src) (hmix : Mixed src) (hfs : FlowShared src)
    (hm : dblEps * dt ≤ m2) (hf2 : ∀ i, i < c.n → f2 i = m2 * (src.parts i).massFraction)
    (hp : ∀ i, i < c.n → (src.parts i).massFraction = 0 ∨ dblEps * dblEps * dt ≤ m2 * (src.parts i).massFraction) :
    ∃ q, addState th.temp src (m2 / dt) o = .ok q ∧ OutflowIs c q dt (m1 + m2) (fun i => f1 i + f2 i) (q1 + src.enthalpy * m2) ∧
      FlowShared q := by
  have hflow : dblEps ≤ m2 / dt := by rw [le_div_iff₀ hdt]; exact hm
  have hpos : 0 < m2 / dt := lt_of_lt_of_le dblEps_pos hflow
  have hnt : NoTinyParts src (m2 / dt) := by
    intro i hi
    rw [← hs.1] at hi
    rcases hp i hi with h | h
    · exact Or.inl h
    · right
      refine le_trans ?_ (le_abs_self _)
      unfold minFlowRate
      rw [div_mul_eq_mul_div, le_div_iff₀ hdt]
      exact h
  have hadd : Addable o (src, m2 / dt) := ⟨h.fluids.symm.trans hs, hmix, hfs, hflow, hnt⟩
  obtain ⟨q, h1, h2, h3, h4, h5, -, h7⟩ := add_step (temp := th.temp) h.adding hadd
  obtain ⟨e1, e2, e3⟩ := c31_add_conserves h1 hfs (hflow.trans (le_abs_self _)) hnt
  refine ⟨q, h1, ⟨?_, h2, h.fluids.trans h5, ?_, ?_, fun _ => ⟨h3, h4, h7⟩⟩, h4⟩
  · simp only at e3
    rw [e3, add_mul, h.heat]
    field_simp
  · simp only at e1
    rw [e1, add_mul, h.flow, div_mul_cancel₀ _ hdt.ne']
  · intro i hi
    have := e2 i (by rw [← h.fluids.1]; exact hi)
    simp only at this
    rw [this, add_mul, h.parts i hi, hf2 i hi]
    have : m2 / dt * (src.parts i).massFraction * dt = m2 * (src.parts i).massFraction := by
      field_simp
    rw [this]

theorem startOutflow_spec {th : Thermo K} {w : Flows K} {s : FNode K} {a : Amounts K} (hr : Ready s)
    (hm : Asked w s.content) (ha : a.outContent = w.fromContent s.content / w.dt) :
    ∃ o, startOutflow th a s = .ok o ∧
      OutflowIs s.content o w.dt (w.fromContent s.content)
        (fun i => w.contentShare s.content * (s.content.parts i).mass)
        (s.content.enthalpy * w.fromContent s.content) := by
  have hdt := hm.dt
  have hpart : ∀ i, i < s.content.n → w.contentShare s.content * (s.content.parts i).mass =
      w.fromContent s.content * (s.content.parts i).massFraction := by
    intro i hi
    rw [hr.content.mass i hi]
    unfold Flows.fromContent
    ring
  have hbase : OutflowIs s.content (resetState s.outflow) w.dt 0 (fun _ => 0) 0 := by
    refine ⟨by show (0 : K) * 0 * _ = 0; rw [zero_mul, zero_mul], adding_reset (hr.outflow.weights hr.weights), hr.outflow, ?_, ?_, fun c => absurd rfl c⟩
    · show (0 : K) * _ = 0; rw [zero_mul]
    · intro i hi
      unfold resetState
      rw [each_parts (by show i < s.outflow.n; rw [← hr.outflow.1]; exact hi)]
      show (0 : K) * _ = 0; rw [zero_mul]
  unfold startOutflow
  rcases hm.fromContent with h0 | ⟨h1, h2⟩
  · have : a.outContent = 0 := by rw [ha, h0, zero_div]
    rw [this, if_neg (lt_irrefl _)]
    refine ⟨_, rfl, by rw [h0, mul_zero]; exact hbase.heat, hbase.adding, hbase.fluids, ?_, ?_, fun c => absurd h0 c⟩
    · rw [h0]; exact hbase.flow
    · intro i hi; rw [hpart i hi, h0, zero_mul]; exact hbase.parts i hi
  · have hpos : 0 < a.outContent := by
      rw [ha]; exact div_pos (lt_of_lt_of_le (mul_pos dblEps_pos hdt) h1) hdt
    obtain ⟨q, g1, g2, g3⟩ := addOut (th := th) hbase hdt (SameFluids.refl _) hr.mixed hr.flow h1 hpart h2
    simp only [if_pos hpos]
    rw [ha, g1]
    simp only [zero_add] at g2
    have hfl : w.fromContent s.content / w.dt = q.flowRate := by
      rw [← g2.flow, mul_div_assoc, div_self hdt.ne', mul_one]
    exact ⟨_, rfl, by rw [hfl, setFlowRate_self g3]; exact g2⟩

theorem normalizeArray_of {n : Nat} {f : Nat → K} (h : ∀ i, i < n → f i = 0 ∨ dblEps * dblEps ≤ f i)
    (hs : |∑ i ∈ range n, f i - 1| ≤ fltEps) : ∀ i, i < n → (normalizeArray n f).1 i = f i := by
  have hg : ∀ i, i < n → (if f i < dblEps * dblEps then 0 else f i) = f i := by
    intro i hi
    rcases h i hi with h0 | h0
    · rw [h0]; split_ifs <;> rfl
    · rw [if_neg (not_lt.2 h0)]
  have hs' : |total n (fun i => if f i < dblEps * dblEps then 0 else f i) - 1| ≤ fltEps := by
    rw [total_eq_sum, Finset.sum_congr rfl (fun i hi => hg i (mem_range.1 hi))]
    exact hs
  unfold normalizeArray
  simp only [if_neg (not_lt.2 hs')]
  exact hg

/-- What is known of the new contents. -/
structure ContentIs (w : Flows K) (c d : Poly K) : Prop where
  fluids : SameFluids c d
  mixed : Mixed d
  content : ContentShared d
  flow : FlowShared d
  moles : ∑ i ∈ range d.n, (d.parts i).moleFraction = 1
  mass : d.mass = w.left c
  parts : ∀ i, i < c.n → (d.parts i).mass = w.leftPart c i

theorem mixContent_spec {w : Flows K} {s : FNode K} {a : Amounts K} (hr : Ready s) (hm : Moderate w s.content)
    (hq : InflowIs w s.content s.inflow) (hi : s.influx * w.dt = w.inMass)
    (h1 : a.contentOutMass = w.fromContent s.content) (h2 : a.inflowOutMass = w.fromInflow s.content) :
    ∃ d, mixContent a w.dt s = .ok d ∧ ContentIs w s.content d := by
  obtain ⟨c0, c1, i0, i1, in0, -, -⟩ := share_le hr hm.toAsked hq
  have hold : max 0 (s.content.mass - a.contentOutMass) = s.content.mass - w.fromContent s.content := by
    rw [h1]
    refine max_eq_right ?_
    unfold Flows.fromContent
    have := mul_le_mul_of_nonneg_right c1 hr.mass
    linarith
  have hleft : s.content.mass - w.fromContent s.content + w.inMass - w.fromInflow s.content = w.left s.content := by
    unfold Flows.left; ring
  unfold mixContent
  simp only [hi, hold, h2, hleft, if_neg (not_lt.2 hm.left), if_pos hm.left]
  by_cases h0 : w.ins = []
  · obtain ⟨-, g2, -, g4⟩ := hq.none h0
    rw [g2, abs_zero, if_neg (not_lt.2 dblEps_pos.le)]
    obtain ⟨k1, k2, k3, k4⟩ := mixOp_inv (o := .mass (w.left s.content)) hr.weights hr.mixed hr.content trivial
    refine ⟨_, rfl, k3, k1, k2, k4 hr.flow trivial, ?_, rfl, ?_⟩
    · have : ∀ i, i < s.content.n → ((setMass (w.left s.content) s.content).parts i).moleFraction =
          (s.content.parts i).moleFraction := by
        intro i hi; unfold setMass; rw [each_parts (by exact hi)]; rfl
      show ∑ i ∈ range s.content.n, _ = _
      rw [Finset.sum_congr rfl (fun i hi => this i (mem_range.1 hi))]
      exact hr.moles
    · intro i hi
      unfold setMass
      rw [each_parts (by exact hi)]
      show (s.content.parts i).massFraction * w.left s.content = _
      unfold Flows.leftPart Flows.outPart Flows.left Flows.fromContent Flows.fromInflow
      rw [g4 i, g2, hr.content.mass i hi]
      ring
  · have hin : dblEps < w.inMass := by
      rcases hm.inMass with h | h
      · exact absurd h h0
      · exact h
    rw [if_pos (hin.trans_le (le_abs_self _))]
    have hL : 0 < w.left s.content := lt_of_lt_of_le dblEps_pos hm.left
    have hnew : w.inMass - w.fromInflow s.content + (s.content.mass - w.fromContent s.content) = w.left s.content := by
      unfold Flows.left; ring
    unfold mixFluidMasses
    simp only [hnew, if_neg (not_lt.2 hm.left)]
    set f := fun i => ((w.inMass - w.fromInflow s.content) * fractions s.inflow i +
      (s.content.mass - w.fromContent s.content) * fractions s.content i) / w.left s.content with hf
    have hfi : ∀ i, i < s.content.n → f i = w.leftPart s.content i / w.left s.content := by
      intro i hi
      rw [hf]
      simp only [fractions]
      congr 1
      unfold Flows.leftPart Flows.outPart Flows.fromContent Flows.fromInflow
      rw [← hq.parts i hi, hr.content.mass i hi]
      ring
    obtain ⟨g1, -, -⟩ := hq.some h0
    have hfsum : |∑ i ∈ range s.content.n, f i - 1| ≤ fltEps := by
      set A := w.inMass - w.fromInflow s.content
      set B := s.content.mass - w.fromContent s.content
      have hA : 0 ≤ A := by
        have := mul_le_mul_of_nonneg_right i1 in0
        show 0 ≤ w.inMass - w.inflowShare s.content * w.inMass
        linarith
      have hB : 0 ≤ B := by
        have := mul_le_mul_of_nonneg_right c1 hr.mass
        show 0 ≤ s.content.mass - w.contentShare s.content * s.content.mass
        linarith
      have e : ∑ i ∈ range s.content.n, f i - 1 =
          (A * (∑ i ∈ range s.content.n, fractions s.inflow i - 1) +
           B * (∑ i ∈ range s.content.n, fractions s.content i - 1)) / w.left s.content := by
        rw [hf, ← Finset.sum_div, Finset.sum_add_distrib, ← Finset.mul_sum, ← Finset.mul_sum, ← hnew]
        rw [← hnew] at hL
        have := hL.ne'
        field_simp
        ring
      rw [e, abs_div, abs_of_pos hL, div_le_iff₀ hL]
      refine (abs_add_le _ _).trans ?_
      rw [abs_mul, abs_mul, abs_of_nonneg hA, abs_of_nonneg hB, ← hnew, mul_add]
      have m1 : |∑ i ∈ range s.content.n, fractions s.inflow i - 1| ≤ fltEps := by
        rw [hq.fluids.1]; exact g1.massSum
      have m2 : |∑ i ∈ range s.content.n, fractions s.content i - 1| ≤ fltEps := hr.mixed.massSum
      have := mul_le_mul_of_nonneg_left m1 hA
      have := mul_le_mul_of_nonneg_left m2 hB
      linarith
    have hnorm : ∀ i, i < s.content.n → (normalizeArray s.content.n f).1 i = f i := by
      apply normalizeArray_of _ hfsum
      intro i hi
      rw [hfi i hi]
      rcases hm.parts i hi with h | h
      · left; rw [h, zero_div]
      · right; rw [le_div_iff₀ hL]; exact h
    have hnn : ∀ i, i < s.content.n → 0 ≤ (normalizeArray s.content.n f).1 i := by
      intro i hi
      rw [hnorm i hi, hfi i hi]
      refine div_nonneg ?_ hL.le
      rcases hm.parts i hi with h | h
      · rw [h]
      · exact (mul_nonneg (mul_nonneg dblEps_pos.le dblEps_pos.le) hL.le).trans h
    have hsum' : |∑ i ∈ range s.content.n, (normalizeArray s.content.n f).1 i - 1| ≤ fltEps := by
      rw [Finset.sum_congr rfl (fun i hi => hnorm i (mem_range.1 hi))]; exact hfsum
    have hnormal := normalise_of_close hsum'
    have hok : ∃ d, setMassAndMassFractions (w.left s.content) (normalizeArray s.content.n f).1 s.content = .ok d := by
      unfold setMassAndMassFractions; rw [hnormal]; exact ⟨_, rfl⟩
    obtain ⟨d, hd⟩ := hok
    obtain ⟨k1, k2, k3, k4, -, k6, k7, g, k8, k9⟩ := setMassFractions_spec hr.weights hnn hd
    rw [hnormal] at k8; cases k8
    refine ⟨d, hd, k6, k1, k2, k3, k7, k4, ?_⟩
    intro i hi
    rw [k2.mass i (by rw [← k6.1]; exact hi), k4, k9 i hi, hnorm i hi, hfi i hi, div_mul_cancel₀ _ hL.ne']

end Gunns.Fluid
