import Verif.Fluid.TraceLemmas

/-!
# A step of a fluid node with trace compounds
-/

set_option linter.unusedSectionVars false

namespace Gunns.Fluid

open Finset Gunns.Props

variable {K : Type _} [Field K] [LinearOrder K] [IsStrictOrderedRing K]

/-- The moles taken from the contents and from the inflow. -/
theorem moles_taken {w : Flows K} {s : FNode K} (hr : Ready s) (hm : Asked w s.content)
    (hq : InflowIs w s.content s.inflow) :
    w.contentShare s.content * s.content.mole = min w.outMoles s.content.mole ∧
    w.inflowShare s.content * w.inMoles s.content = w.outMoles - min w.outMoles s.content.mole := by
  obtain ⟨-, -, -, -, -, hmole0, hout0⟩ := share_le hr hm hq
  constructor
  · unfold Flows.contentShare
    by_cases h0 : s.content.mole = 0
    · rw [h0, mul_zero, min_eq_right hout0]
    · exact div_mul_cancel₀ _ h0
  · unfold Flows.inflowShare
    by_cases h0 : w.inMoles s.content = 0
    · have he := hm.enough
      rw [h0, add_zero] at he
      rw [h0, mul_zero, min_eq_left he, sub_self]
    · exact div_mul_cancel₀ _ h0

/-- The moles left. -/
theorem moles_left {w : Flows K} {s : FNode K} {d : Poly K} (hr : Ready s) (hm : Asked w s.content)
    (hq : InflowIs w s.content s.inflow) (hd : ContentIs w s.content d) :
    d.mole = s.content.mole + w.inMoles s.content - w.outMoles := by
  obtain ⟨t1, t2⟩ := moles_taken hr hm hq
  rw [mole_eq (hd.fluids.weights hr.weights) hd.mixed hd.content hd.moles, ← hd.fluids.1]
  have e : ∀ i, i < s.content.n → (d.parts i).mass / d.mw i =
      (s.content.parts i).mass / s.content.mw i + w.inPart i / s.content.mw i -
      (w.contentShare s.content * ((s.content.parts i).mass / s.content.mw i) +
        w.inflowShare s.content * (w.inPart i / s.content.mw i)) := by
    intro i hi
    rw [hd.parts i hi, ← (hd.fluids.2 i hi).2]
    unfold Flows.leftPart Flows.outPart
    ring
  rw [Finset.sum_congr rfl (fun i hi => e i (mem_range.1 hi)), Finset.sum_sub_distrib, Finset.sum_add_distrib,
    Finset.sum_add_distrib, ← Finset.mul_sum, ← Finset.mul_sum,
    ← mole_eq hr.weights hr.mixed hr.content hr.moles]
  have e2 : ∑ i ∈ range s.content.n, w.inPart i / s.content.mw i = w.inMoles s.content := rfl
  rw [e2, t1, t2]
  ring

/-- The moles that flow in and how the inflow's molecular weight relates them to mass. -/
theorem moles_mixed {w : Flows K} {s : FNode K} (hq : InflowIs w s.content s.inflow) (h : w.ins ≠ []) :
    (w.inMass - w.fromInflow s.content) / s.inflow.mweight = (1 - w.inflowShare s.content) * w.inMoles s.content := by
  rw [← (hq.some h).2.1]
  unfold Flows.fromInflow
  ring

/-- What is known of the node's trace compounds once all is collected. -/
structure TraceIs (g : TcConfig K) (w : Flows K) (ops : List (TCollect K)) (s : TNode K) : Prop where
  some : w.ins ≠ [] → ∀ j, j < g.n → s.inflow.frac j * w.inMoles s.fluid.content * g.mw j = tcIn g w.dt ops j
  none : w.ins = [] → ∀ j, j < g.n → tcIn g w.dt ops j = 0
  rates : ∀ j, j < g.n → s.rates j * w.dt = tcGiven w.dt ops j

theorem tc_left {g : TcConfig K} {w : Flows K} {c : Poly K} {t : Tc K} {ops : List (TCollect K)} (j : Nat) :
    t.mass j + tcIn g w.dt ops j - tcOut g w c t ops j =
      (1 - w.contentShare c) * t.mass j + (1 - w.inflowShare c) * tcIn g w.dt ops j := by
  unfold tcOut; ring

/-- The trace compounds of the new contents. -/
theorem traceVolume_spec {g : TcConfig K} {w : Flows K} {ops : List (TCollect K)} {s : TNode K} {a : Amounts K} {d : Poly K}
    (hr : Ready s.fluid) (hm : Moderate w s.fluid.content)
    (hq : InflowIs w s.fluid.content s.fluid.inflow) (hi : s.fluid.influx * w.dt = w.inMass)
    (h1 : a.contentOutMass = w.fromContent s.fluid.content) (h2 : a.inflowOutMass = w.fromInflow s.fluid.content)
    (hd : ContentIs w s.fluid.content d) (hp : 0 < d.mole)
    (ht : Tidy g s.fluid.content.mole s.content) (hT : TraceModerate g w s.fluid.content s.content ops)
    (hin : TraceIs g w ops s) :
    Tidy g d.mole (traceVolume g a w.dt d s) ∧
    ∀ j, j < g.n → (traceVolume g a w.dt d s).mass j =
      s.content.mass j + tcIn g w.dt ops j - tcOut g w s.fluid.content s.content ops j + tcGiven w.dt ops j := by
  obtain ⟨c0, c1, i0, i1, in0, hmole0, hout0⟩ := share_le hr hm.toAsked hq
  have hgw := hd.fluids.weights hr.weights
  have hdw : dblEps < d.mweight := mweight_gt hgw hd.mixed
  have hcw : dblEps < s.fluid.content.mweight := mweight_gt hr.weights hr.mixed
  have hcpos : 0 < s.fluid.content.mweight := dblEps_pos.trans hcw
  have hL := moles_left hr hm.toAsked hq hd
  obtain ⟨m1, m2⟩ := moles_taken hr hm.toAsked hq
  have hold : max 0 (s.fluid.content.mass - a.contentOutMass) = s.fluid.content.mass - w.fromContent s.fluid.content := by
    rw [h1]
    refine max_eq_right ?_
    unfold Flows.fromContent
    have := mul_le_mul_of_nonneg_right c1 hr.mass
    linarith
  have hleft : s.fluid.content.mass - w.fromContent s.fluid.content + w.inMass - w.fromInflow s.fluid.content =
      w.left s.fluid.content := by
    unfold Flows.left; ring
  have hfm : w.fromContent s.fluid.content / s.fluid.content.mweight = min w.outMoles s.fluid.content.mole := by
    rw [← m1]
    unfold Flows.fromContent
    rw [← hr.content.moles]
    field_simp
  rw [h1] at hold
  unfold traceVolume
  simp only [hi, hold, h1, h2, hleft, if_pos hm.left, if_pos hdw, if_pos hcw, hfm]
  -- the mixture before the rates
  have key : ∃ t1 : Tc K, (if dblEps < |w.inMass| then
        Tc.flowIn g d.mole s.inflow ((w.inMass - w.fromInflow s.fluid.content) / s.fluid.inflow.mweight)
          (Tc.flowOut g (min w.outMoles s.fluid.content.mole) s.content)
      else Tc.updateMasses g d.mole s.content) = t1 ∧
      ∀ j, j < g.n → t1.mass j = s.content.mass j + tcIn g w.dt ops j - tcOut g w s.fluid.content s.content ops j := by
    refine ⟨_, rfl, ?_⟩
    by_cases h0 : w.ins = []
    · obtain ⟨-, g2, g3, -⟩ := hq.none h0
      rw [g2, abs_zero, if_neg (not_lt.2 dblEps_pos.le)]
      intro j hj
      show s.content.frac j * d.mole * g.mw j = _
      rw [tc_left, hin.none h0 j hj, mul_zero, add_zero, hL, g3, add_zero]
      obtain ⟨-, b, -⟩ := ht j hj
      have he : w.outMoles ≤ s.fluid.content.mole := by have := hm.enough; rw [g3, add_zero] at this; exact this
      rw [min_eq_left he] at m1
      rw [b]
      linear_combination (- s.content.frac j * g.mw j) * (- m1)
    · have hinm : dblEps < w.inMass := by
        rcases hm.inMass with h | h
        · exact absurd h h0
        · exact h
      rw [if_pos (hinm.trans_le (le_abs_self _)), moles_mixed hq h0]
      have hout : ∀ j, j < g.n → (Tc.flowOut g (min w.outMoles s.fluid.content.mole) s.content).mass j =
          (1 - w.contentShare s.fluid.content) * s.content.mass j := by
        intro j hj
        obtain ⟨-, b, -⟩ := ht j hj
        have e : s.content.mass j - min w.outMoles s.fluid.content.mole * s.content.frac j * g.mw j =
            (1 - w.contentShare s.fluid.content) * s.content.mass j := by
          rw [← m1]
          linear_combination (w.contentShare s.fluid.content) * b
        unfold Tc.flowOut
        rcases (hT.drained.resolve_left h0) with h | h
        · rw [if_neg (by rw [h]; exact not_lt.2 dblEps_pos.le)]
          rw [h] at e
          linear_combination e
        · rw [if_pos h]
          exact e
      have hmix : ∀ j, j < g.n → (Tc.flowOut g (min w.outMoles s.fluid.content.mole) s.content).mass j +
          (1 - w.inflowShare s.fluid.content) * w.inMoles s.fluid.content * s.inflow.frac j * g.mw j =
          s.content.mass j + tcIn g w.dt ops j - tcOut g w s.fluid.content s.content ops j := by
        intro j hj
        rw [hout j hj, tc_left, ← hin.some h0 j hj]
        ring
      intro j hj
      unfold Tc.flowIn
      refine ((tc_update_spec (t := ⟨_, _⟩) hp (hT.weights j hj) ?_).1).trans (hmix j hj)
      show Enough g j d.mole (_ + _)
      rw [hmix j hj, hL]
      exact hT.mixed j hj
  obtain ⟨t1, k1, k2⟩ := key
  rw [k1]
  have hfin : ∀ j, j < g.n → max 0 (t1.mass j + s.rates j * w.dt) =
      s.content.mass j + tcIn g w.dt ops j - tcOut g w s.fluid.content s.content ops j + tcGiven w.dt ops j := by
    intro j hj
    rw [k2 j hj, hin.rates j hj]
    refine max_eq_right ?_
    have := hT.final j hj
    rw [← hL] at this
    exact this.nonneg hp.le (hT.weights j hj)
  unfold Tc.flowInRates
  have := tidy_update (t := { t1 with mass := fun i => max 0 (t1.mass i + s.rates i * w.dt) }) hp hT.weights (by
    intro j hj
    show Enough g j d.mole (max 0 (t1.mass j + s.rates j * w.dt))
    rw [hfin j hj, hL]
    exact hT.final j hj)
  exact ⟨this.1, fun j hj => (this.2 j hj).trans (hfin j hj)⟩

/-- Tidy trace compounds are left alone by `limitPositive`. -/
theorem limitPositive_tidy {g : TcConfig K} {moles : K} {t : Tc K} (hm : 0 < moles) (hw : ∀ j, j < g.n → 0 < g.mw j)
    (h : Tidy g moles t) : Tidy g moles (Tc.limitPositive g moles t) ∧
      ∀ j, j < g.n → (Tc.limitPositive g moles t).mass j = t.mass j := by
  have e : ∀ j, j < g.n → max 0 (t.mass j) = t.mass j := fun j hj => max_eq_right (h j hj).1
  have := tidy_update (t := { t with mass := fun i => max 0 (t.mass i) }) hm hw (by
    intro j hj
    show Enough g j moles (max 0 (t.mass j))
    rw [e j hj]; exact h.enough hm.le hw hj)
  exact ⟨this.1, fun j hj => (this.2 j hj).trans (e j hj)⟩

/-- The trace compounds of the contents' share of the outflow. -/
theorem traceStart_spec {th : Thermo K} {g : TcConfig K} {w : Flows K} {s : TNode K} {a : Amounts K}
    (hr : Ready s.fluid) (hm : Asked w s.fluid.content) (hq : InflowIs w s.fluid.content s.fluid.inflow)
    (ha : a.outContent = w.fromContent s.fluid.content / w.dt) (hw : ∀ j, j < g.n → 0 < g.mw j)
    (ht : Tidy g s.fluid.content.mole s.content) :
    ∀ j, j < g.n → (traceStart th g a s).mass j * w.dt = w.contentShare s.fluid.content * s.content.mass j ∧
      (0 < a.outContent → (traceStart th g a s).frac j = s.content.frac j) := by
  have hdt := hm.dt
  obtain ⟨c0, c1, i0, i1, in0, hmole0, hout0⟩ := share_le hr hm hq
  obtain ⟨m1, -⟩ := moles_taken hr hm hq
  have hcw : dblEps < s.fluid.content.mweight := mweight_gt hr.weights hr.mixed
  have hcpos : 0 < s.fluid.content.mweight := dblEps_pos.trans hcw
  intro j hj
  obtain ⟨-, b, bb⟩ := ht j hj
  unfold traceStart
  rcases hm.fromContent with h0 | ⟨h1, h2⟩
  · have hz : a.outContent = 0 := by rw [ha, h0, zero_div]
    rw [hz, if_neg (lt_irrefl _)]
    refine ⟨?_, fun h => absurd h (lt_irrefl _)⟩
    show (0 : K) * _ = _
    have : w.contentShare s.fluid.content * s.fluid.content.mole = 0 := by
      unfold Flows.fromContent at h0
      rw [← hr.content.moles, ← mul_assoc] at h0
      exact (mul_eq_zero.1 h0).resolve_right hcpos.ne'
    rw [b, zero_mul]
    linear_combination (- s.content.frac j * g.mw j) * this
  · have hposF : 0 < w.fromContent s.fluid.content := lt_of_lt_of_le (mul_pos dblEps_pos hdt) h1
    have hpos : 0 < a.outContent := by rw [ha]; exact div_pos hposF hdt
    have hbase : OutflowIs s.fluid.content (resetState s.fluid.outflow) w.dt 0 (fun _ => 0) 0 := by
      refine ⟨by show (0 : K) * 0 * _ = 0; rw [zero_mul, zero_mul], adding_reset (hr.outflow.weights hr.weights),
        hr.outflow, ?_, ?_, fun c => absurd rfl c⟩
      · show (0 : K) * _ = 0; rw [zero_mul]
      · intro i hi
        unfold resetState
        rw [each_parts (by show i < s.fluid.outflow.n; rw [← hr.outflow.1]; exact hi)]
        show (0 : K) * _ = 0; rw [zero_mul]
    obtain ⟨q, g1, g2, g3⟩ := addOut (th := th) hbase hdt (SameFluids.refl _) hr.mixed hr.flow h1
      (f2 := fun i => w.fromContent s.fluid.content * (s.fluid.content.parts i).massFraction) (fun _ _ => rfl) h2
    rw [if_pos hpos]
    have g1' : addState th.temp s.fluid.content a.outContent (resetState s.fluid.outflow) = .ok q := by rw [ha]; exact g1
    rw [g1']
    simp only [zero_add] at g2
    have hqf : 0 < q.flowRate := by
      have := g2.flow
      rw [← this] at hposF
      exact pos_of_mul_pos_left hposF hdt.le
    obtain ⟨n1, n2, n3⟩ := g2.some hposF.ne'
    have hmf : moleFlow q * w.dt = w.contentShare s.fluid.content * s.fluid.content.mole := by
      rw [moleFlow_eq g1' hqf.ne', n3, Finset.sum_mul, ← g2.fluids.1,
        mole_eq hr.weights hr.mixed hr.content hr.moles, Finset.mul_sum]
      refine Finset.sum_congr rfl (fun i hi => ?_)
      have hi' := mem_range.1 hi
      rw [← (g2.fluids.2 i hi').2, div_mul_eq_mul_div, g2.parts i hi', hr.content.mass i hi']
      unfold Flows.fromContent
      ring
    have hmpos : 0 < moleFlow q := by rw [moleFlow_eq g1' hqf.ne']; exact div_pos hqf n1.weight.1
    have hfl : dblEps ≤ a.outContent := by rw [ha, le_div_iff₀ hdt]; exact h1
    have hsf : sourceFlow s.fluid.content a.outContent = a.outContent :=
      if_neg (not_lt.2 (hfl.trans (le_abs_self _)))
    have hin : a.outContent / s.fluid.content.mweight = moleFlow q := by
      have : a.outContent / s.fluid.content.mweight * w.dt = moleFlow q * w.dt := by
        rw [hmf, ha]
        unfold Flows.fromContent
        rw [← hr.content.moles]
        field_simp
      exact mul_right_cancel₀ hdt.ne' this
    simp only [Tc.addState, if_pos hcw, hsf, hin]
    unfold Tc.flowIn
    have hmass : (Tc.zero : Tc K).mass j + moleFlow q * s.content.frac j * g.mw j =
        s.content.frac j * moleFlow q * g.mw j := by
      show (0 : K) + _ = _
      ring
    obtain ⟨u1, u2, -⟩ := tc_update_spec (g := g) (moles := moleFlow q) (j := j) (t := { (Tc.zero : Tc K) with
        mass := fun i => (Tc.zero : Tc K).mass i + moleFlow q * s.content.frac i * g.mw i }) hmpos (hw j hj) (by
      show Enough g j (moleFlow q) ((Tc.zero : Tc K).mass j + moleFlow q * s.content.frac j * g.mw j)
      rw [hmass]
      rcases bb with h | h
      · left; rw [h, zero_mul, zero_mul]
      · right; exact mul_le_mul_of_nonneg_right (mul_le_mul_of_nonneg_right h hmpos.le) (hw j hj).le)
    refine ⟨?_, fun _ => ?_⟩
    · rw [u1]
      show ((Tc.zero : Tc K).mass j + moleFlow q * s.content.frac j * g.mw j) * w.dt = _
      rw [hmass, b]
      linear_combination (s.content.frac j * g.mw j) * hmf
    · have : _ = s.content.frac j * moleFlow q * g.mw j := u2.trans hmass
      exact mul_right_cancel₀ hmpos.ne' (mul_right_cancel₀ (hw j hj).ne' this)

/-- The flow of moles of a mixture that collects flows. -/
theorem moleFlow_adding {o : Poly K} (h : Adding o) (hf : dblEps ≤ o.flowRate) :
    moleFlow o = ∑ i ∈ range o.n, (o.parts i).flowRate / o.mw i := by
  unfold moleFlow
  rw [total_eq_sum]
  refine innerLimit_of_ge ?_
  have h1 : ∑ i ∈ range o.n, (o.parts i).flowRate * (2 * dblEps) ≤ ∑ i ∈ range o.n, (o.parts i).flowRate / o.mw i := by
    refine Finset.sum_le_sum (fun i hi => ?_)
    have hi' := mem_range.1 hi
    rw [le_div_iff₀ (h.weights.pos hi'), mul_assoc]
    exact mul_le_of_le_one_right (h.parts i hi') (h.weights i hi').2
  rw [← Finset.sum_mul] at h1
  have h2 := (abs_le.1 h.sum).1
  have hd := dblEps_pos (K := K)
  have hfl : (fltEps : K) ≤ 1 / 4 := by unfold fltEps; norm_num
  have h3 : fltEps * o.flowRate ≤ 1 / 4 * o.flowRate := mul_le_mul_of_nonneg_right hfl h.nonneg
  have h4 : 1 / 2 * o.flowRate ≤ ∑ i ∈ range o.n, (o.parts i).flowRate := by linarith [h.nonneg]
  have h5 : dblEps * dblEps ≤ (∑ i ∈ range o.n, (o.parts i).flowRate) * (2 * dblEps) := by
    have := mul_le_mul_of_nonneg_right h4 (by linarith : (0 : K) ≤ 2 * dblEps)
    have h6 := mul_le_mul_of_nonneg_right hf hd.le
    linarith
  exact h5.trans h1

/-- What a step of a node with a volume does to trace compounds. -/
theorem trace_step {th : Thermo K} {g : TcConfig K} {w : Flows K} {ops : List (TCollect K)} {s : TNode K}
    (hr : Ready s.fluid) (hm : Moderate w s.fluid.content) (hv : 0 < s.fluid.volume)
    (hq : InflowIs w s.fluid.content s.fluid.inflow) (hi : s.fluid.influx * w.dt = w.inMass)
    (ho : s.fluid.scheduled * w.dt = w.outMoles)
    (ht : Tidy g s.fluid.content.mole s.content) (hT : TraceModerate g w s.fluid.content s.content ops)
    (hin : TraceIs g w ops s) :
    ∃ r, s.integrateFlows th g w.dt = some r ∧ integrateFlows th w.dt s.fluid = .ok r.fluid ∧
      Tidy g r.fluid.content.mole r.content ∧
      (∀ j, j < g.n → r.content.mass j = s.content.mass j + tcIn g w.dt ops j -
        tcOut g w s.fluid.content s.content ops j + tcGiven w.dt ops j) ∧
      (0 < w.outMoles → ∀ j, j < g.n →
        r.outflow.frac j * w.outMoles * g.mw j = tcOut g w s.fluid.content s.content ops j) ∧
      (0 < w.outMoles → w.outMoles ≤ s.fluid.content.mole → ∀ j, j < g.n → r.outflow.frac j = s.content.frac j) := by
  have hdt := hm.dt
  obtain ⟨a1, a2, a3, a4⟩ := amounts_spec hr hm.toAsked hq hi ho
  obtain ⟨c0, c1, i0, i1, in0, hmole0, hout0⟩ := share_le hr hm.toAsked hq
  obtain ⟨m1, m2⟩ := moles_taken hr hm.toAsked hq
  obtain ⟨d, mc1, mc2⟩ := mixContent_spec hr hm hq hi a1 a2
  obtain ⟨r, n1, n2, n3, -, -, n6, -, -⟩ := node_step (th := th) hr hm hv hq hi ho
  have hLd := moles_left hr hm.toAsked hq mc2
  have hLr := moles_left hr hm.toAsked hq n3
  have hL : 0 < w.left s.fluid.content := lt_of_lt_of_le dblEps_pos hm.left
  have hrpos : 0 < r.content.mole := by
    rw [← n3.mass, ← n3.content.moles] at hL
    exact pos_of_mul_pos_left hL n3.mixed.weight.1.le
  have hde : d.mole = r.content.mole := hLd.trans hLr.symm
  have hdp : 0 < d.mole := by rw [hde]; exact hrpos
  obtain ⟨v1, v2⟩ := traceVolume_spec hr hm hq hi a1 a2 mc2 hdp ht hT hin
  rw [hde] at v1
  obtain ⟨l1, l2⟩ := limitPositive_tidy hrpos hT.weights v1
  have hst := traceStart_spec (th := th) hr hm.toAsked hq a3 hT.weights ht
  have hfc0 : 0 ≤ w.fromContent s.fluid.content := mul_nonneg c0 hr.mass
  have hcpos : 0 < s.fluid.content.mweight := hr.mixed.weight.1
  unfold TNode.integrateFlows
  simp only [n1, mc1, if_pos hv]
  refine ⟨_, rfl, rfl, l1, fun j hj => (l2 j hj).trans (v2 j hj), ?_⟩
  simp only
  obtain ⟨t, htt⟩ : ∃ t, t = Tc.limitPositive g r.content.mole (traceVolume g (amounts w.dt s.fluid) w.dt d s) := ⟨_, rfl⟩
  rw [← htt] at l1 l2 ⊢
  unfold traceFinish
  rcases hm.fromInflow with h0 | ⟨h1, h2⟩
  · have hthru : (amounts w.dt s.fluid).outThru = 0 := by rw [a4, h0, zero_div]
    rw [hthru, if_neg (lt_irrefl _)]
    -- nothing flows through
    have hz : ∀ x : K, (w.ins = [] → x = 0) → w.inflowShare s.fluid.content * x = 0 := by
      intro x hx
      by_cases he : w.ins = []
      · rw [hx he, mul_zero]
      · have hinm : 0 < w.inMass := dblEps_pos.trans (hm.inMass.resolve_left he)
        have : w.inflowShare s.fluid.content = 0 := (mul_eq_zero.1 h0).resolve_right hinm.ne'
        rw [this, zero_mul]
    have hmz := hz (w.inMoles s.fluid.content) (fun he => (hq.none he).2.2.1)
    have hcs : w.contentShare s.fluid.content * s.fluid.content.mole = w.outMoles := by
      rw [m1]; rw [hmz] at m2; linarith
    by_cases hc : (amounts w.dt s.fluid).outContent ≤ 0
    · have hzero : w.outMoles = 0 := by
        have : w.fromContent s.fluid.content = 0 := by
          rw [a3, div_le_iff₀ hdt, zero_mul] at hc
          exact hc.antisymm hfc0
        unfold Flows.fromContent at this
        rw [← hr.content.moles, ← mul_assoc] at this
        rw [← hcs]
        exact (mul_eq_zero.1 this).resolve_right hcpos.ne'
      rw [hzero]
      exact ⟨fun c => absurd c (lt_irrefl _), fun c => absurd c (lt_irrefl _)⟩
    · rw [if_neg hc]
      refine ⟨fun _ j hj => ?_, fun _ _ j hj => (hst j hj).2 (not_le.1 hc)⟩
      rw [(hst j hj).2 (not_le.1 hc)]
      unfold tcOut
      rw [hz _ (fun he => hin.none he j hj), (ht j hj).2.1, ← hcs]
      ring
  · have hpos : 0 < w.fromInflow s.fluid.content := lt_of_lt_of_le (mul_pos dblEps_pos hdt) h1
    have hthru : 0 < (amounts w.dt s.fluid).outThru := by rw [a4]; exact div_pos hpos hdt
    rw [if_pos hthru]
    have hsh : w.inflowShare s.fluid.content ≠ 0 := by
      intro c; unfold Flows.fromInflow at hpos; rw [c, zero_mul] at hpos; exact lt_irrefl _ hpos
    have hover : s.fluid.content.mole < w.outMoles := by
      by_contra hc
      apply hsh
      unfold Flows.inflowShare
      rw [min_eq_left (not_lt.1 hc), sub_self, zero_div]
    refine ⟨fun hout j hj => ?_, fun _ hle => absurd hle (not_le.2 hover)⟩
    obtain ⟨of, -, -⟩ := n6 hout
    have hins : w.ins ≠ [] := by
      intro c
      unfold Flows.fromInflow at hpos
      rw [(hq.none c).2.1, mul_zero] at hpos
      exact lt_irrefl _ hpos
    have hmass0 : 0 ≤ w.fromContent s.fluid.content + w.fromInflow s.fluid.content := add_nonneg hfc0 hpos.le
    have hne : w.fromContent s.fluid.content + w.fromInflow s.fluid.content ≠ 0 := (add_pos_of_nonneg_of_pos hfc0 hpos).ne'
    have hflow : dblEps ≤ r.outflow.flowRate := by
      have e := of.flow
      have : dblEps * w.dt ≤ r.outflow.flowRate * w.dt := by rw [e]; linarith
      exact le_of_mul_le_mul_right this hdt
    obtain ⟨x1, x2, x3⟩ := of.some hne
    have hmf : moleFlow r.outflow * w.dt = w.outMoles := by
      rw [moleFlow_adding of.adding hflow, ← x3]
      obtain ⟨e1, -⟩ := of.weight hr hm.toAsked hq hne
      rw [div_mul_eq_mul_div, of.flow, ← e1, mul_div_assoc, div_self x1.weight.1.ne', mul_one]
    have hmpos : 0 < moleFlow r.outflow := by
      rw [← hmf] at hout; exact pos_of_mul_pos_left hout hdt.le
    have hrw : dblEps < r.content.mweight := mweight_gt n2.weights n2.mixed
    have hrwp : 0 < r.content.mweight := dblEps_pos.trans hrw
    have hfl : dblEps ≤ (amounts w.dt s.fluid).outThru := by rw [a4, le_div_iff₀ hdt]; exact h1
    have hsf : sourceFlow r.content (amounts w.dt s.fluid).outThru = (amounts w.dt s.fluid).outThru :=
      if_neg (not_lt.2 (hfl.trans (le_abs_self _)))
    unfold Tc.addState
    rw [if_pos hrw, hsf, a4]
    unfold Tc.flowIn
    -- all of the contents are gone
    have hall : w.contentShare s.fluid.content * s.content.mass j = s.content.mass j := by
      rw [(ht j hj).2.1]
      rw [min_eq_right hover.le] at m1
      linear_combination (s.content.frac j * g.mw j) * m1
    have hcm : w.contentShare s.fluid.content * s.fluid.content.mass = s.fluid.content.mass := by
      rw [min_eq_right hover.le] at m1
      rw [← hr.content.moles]
      linear_combination (s.fluid.content.mweight) * m1
    have hgiven : tcGiven w.dt ops j = 0 := (hT.given.resolve_left (not_le.2 hover)) j hj
    have hnew : t.frac j * r.content.mole * g.mw j = (1 - w.inflowShare s.fluid.content) * tcIn g w.dt ops j := by
      rw [← (l1 j hj).2.1, l2 j hj, v2 j hj, hgiven, tc_left]
      linear_combination - hall
    have hrm : r.content.mole = (1 - w.inflowShare s.fluid.content) * w.inMoles s.fluid.content := by
      rw [hLr]
      rw [min_eq_right hover.le] at m2
      linear_combination m2
    have h1s : (1 - w.inflowShare s.fluid.content) ≠ 0 := by
      intro c; rw [hrm, c, zero_mul] at hrpos; exact lt_irrefl _ hrpos
    have hrmass : r.content.mole * r.content.mweight = (1 - w.inflowShare s.fluid.content) * w.inMass := by
      rw [n3.content.moles, n3.mass]
      unfold Flows.left Flows.fromContent Flows.fromInflow
      linear_combination - hcm
    have hthrough : w.fromInflow s.fluid.content / r.content.mweight * t.frac j * g.mw j =
        w.inflowShare s.fluid.content * tcIn g w.dt ops j := by
      apply mul_left_cancel₀ h1s
      have e : (1 - w.inflowShare s.fluid.content) * (w.fromInflow s.fluid.content / r.content.mweight) =
          w.inflowShare s.fluid.content * r.content.mole := by
        unfold Flows.fromInflow
        rw [mul_div_assoc', div_eq_iff hrwp.ne']
        linear_combination (- w.inflowShare s.fluid.content) * hrmass
      linear_combination (t.frac j * g.mw j) * e + (w.inflowShare s.fluid.content) * hnew
    have hmassj : ((traceStart th g (amounts w.dt s.fluid) s).mass j +
        w.fromInflow s.fluid.content / w.dt / r.content.mweight * t.frac j * g.mw j) * w.dt =
        tcOut g w s.fluid.content s.content ops j := by
      unfold tcOut
      rw [add_mul, (hst j hj).1, ← hthrough]
      congr 1
      field_simp
    obtain ⟨u1, u2, -⟩ := tc_update_spec (g := g) (moles := moleFlow r.outflow) (j := j)
      (t := { traceStart th g (amounts w.dt s.fluid) s with
        mass := fun i => (traceStart th g (amounts w.dt s.fluid) s).mass i +
          w.fromInflow s.fluid.content / w.dt / r.content.mweight * t.frac i * g.mw i }) hmpos (hT.weights j hj) (by
      rcases hT.out j hj with h | h
      · left
        rw [h] at hmassj
        exact (mul_eq_zero.1 hmassj).resolve_right hdt.ne'
      · right
        rw [← hmf, ← hmassj] at h
        refine le_of_mul_le_mul_right ?_ hdt
        linarith)
    rw [← hmassj, ← hmf]
    simp only at u2
    rw [← u2]
    ring

end Gunns.Fluid
