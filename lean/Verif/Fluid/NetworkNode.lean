import Verif.Props.FluidNode

/-!
# A step of any fluid node, with or without volume
-/

set_option linter.unusedSectionVars false

namespace Gunns.Fluid
open Gunns.Props Finset

variable {K : Type _} [Field K] [LinearOrder K] [IsStrictOrderedRing K]

/-- The mass of constituent `i` held by a node. -/
def held (s : FNode K) (i : Nat) : K := (s.content.parts i).massFraction * s.content.mass

/-- Flows that none of the code's guards against small or missing amounts acts on. A node without volume and without
contents must have no flows, or pass on as many moles as flow in. -/
def Fine (dt : K) (ops : List (Collect K)) (s : FNode K) : Prop :=
  (0 < s.volume ∧ Moderate (flowsOf dt ops) s.content) ∨
  (¬ 0 < s.volume ∧ s.content.mole = 0 ∧ 0 < dt ∧ inflows ops = [] ∧ (outs ops).sum = 0) ∨
  (¬ 0 < s.volume ∧ s.content.mole = 0 ∧ Asked (flowsOf dt ops) s.content ∧ inflows ops ≠ [] ∧ 0 < (outs ops).sum ∧
    (flowsOf dt ops).outMoles = (flowsOf dt ops).inMoles s.content ∧
    ∀ i, i < s.content.n → (flowsOf dt ops).inPart i = 0 ∨
      dblEps * dblEps * (flowsOf dt ops).inMass ≤ (flowsOf dt ops).inPart i)

/-- What is known of a node after a step. -/
structure Stepped (dt : K) (ops : List (Collect K)) (s s0 r : FNode K) : Prop where
  ready : Ready r
  fluids : SameFluids s.content r.content
  volume : r.volume = s.volume
  balance : ∀ i, i < s.content.n → held r i = held s i + (flowsOf dt ops).inPart i -
    (flowsOf dt ops).outMoles * r.outflow.mweight * (r.outflow.parts i).massFraction
  mixed : Mixed r.outflow ∧ FlowShared r.outflow ∧ SameFluids s.content r.outflow
  first : 0 < (outs ops).sum → (outs ops).sum * dt ≤ s.content.mole → s0.outflow.mweight = r.outflow.mweight ∧
      ∀ i, i < s.content.n → (s0.outflow.parts i).massFraction = (r.outflow.parts i).massFraction

theorem held_eq {s : FNode K} (hr : Ready s) {i : Nat} (hi : i < s.content.n) : held s i = (s.content.parts i).mass :=
  (hr.content.mass i hi).symm

theorem node_any {th : Thermo K} {s : FNode K} {dt : K} {ops : List (Collect K)} (hr : Ready s)
    (hin : ∀ a ∈ inflows ops, Addable s.content a) (hf : Fine dt ops s) :
    ∃ s0 r, resetFlows s = .ok s0 ∧ integrateFlows th dt (ops.foldl (Collect.run th) s0) = .ok r ∧
      Stepped dt ops s s0 r := by
  rcases hf with ⟨hv, hm⟩ | ⟨hv, hmole, hdt, hno, hnone⟩ | ⟨hv, hmole, hm, hne, hout, heq, hp⟩
  · have hdt : 0 < dt := hm.dt
    obtain ⟨s0, h1, h2, h3⟩ := collected (th := th) hr hdt hin
    obtain ⟨g1, g2, g3, -, -, -, g7, g8, g9, -⟩ := h3
    have hm' := hm
    rw [← g2] at hm'
    obtain ⟨r, k1, k2, k3, -, k5, k6, k7, -⟩ := node_step (th := th) g1 hm' (by rw [g3]; exact hv) g7 g8 g9
    have k1' : integrateFlows th dt (ops.foldl (Collect.run th) s0) = .ok r := k1
    have hres : nodeStep th dt ops s = .ok r := by unfold nodeStep; rw [h1]; exact k1
    rw [g2] at k3 k6 k7
    obtain ⟨c0, c1, i0, i1, in0, hmole0, hout0⟩ := share_le g1 hm'.toAsked g7
    refine ⟨s0, r, h1, k1', ?_⟩
    by_cases hpos : 0 < (outs ops).sum
    · obtain ⟨d1, d2, d3⟩ := c32_links_draw (th := th) hr hv hin hm hres hpos
      obtain ⟨o1, o2, o3⟩ := k6 (mul_pos hpos hdt)
      refine ⟨k2, k3.fluids, k5.trans g3, ?_, ⟨o2, o3, o1.fluids⟩, ?_⟩
      · intro i hi
        rw [held_eq k2 (by rw [← k3.fluids.1]; exact hi), held_eq hr hi, k3.parts i hi]
        unfold Flows.leftPart
        rw [← d2 i hi]
        congr 1
        have : (fun f : K => f * dt * r.outflow.mweight * (r.outflow.parts i).massFraction) =
            fun f => f * (dt * r.outflow.mweight * (r.outflow.parts i).massFraction) := by funext f; ring
        rw [this, List.sum_map_mul_right, List.map_id']
        show _ = (outs ops).sum * dt * _ * _
        ring
      · intro _ hle
        obtain ⟨s0', e1, e2, e3⟩ := d3 hle
        rw [h1] at e1; cases e1
        exact ⟨e2, e3⟩
    · have h0 : (flowsOf dt ops).outMoles = 0 := by
        have : ¬ 0 < (flowsOf dt ops).outMoles := fun h => hpos (pos_of_mul_pos_left h hdt.le)
        exact le_antisymm (not_lt.1 this) hout0
      have hcs : (flowsOf dt ops).contentShare s.content = 0 := by
        unfold Flows.contentShare
        rw [h0, min_eq_left (by rw [g2] at hmole0; exact hmole0), zero_div]
      have his : (flowsOf dt ops).inflowShare s.content = 0 := by
        unfold Flows.inflowShare
        rw [h0, min_eq_left (by rw [g2] at hmole0; exact hmole0), sub_self, zero_div]
      have hz : (flowsOf dt ops).fromContent s.content + (flowsOf dt ops).fromInflow s.content = 0 := by
        unfold Flows.fromContent Flows.fromInflow
        rw [hcs, his, zero_mul, zero_mul, add_zero]
      obtain ⟨z1, z2, z3, z4, z5⟩ := k7 hz
      refine ⟨k2, k3.fluids, k5.trans g3, ?_, ⟨z3, z4, z1⟩, fun h => absurd h hpos⟩
      intro i hi
      rw [held_eq k2 (by rw [← k3.fluids.1]; exact hi), held_eq hr hi, k3.parts i hi, h0]
      unfold Flows.leftPart Flows.outPart
      rw [hcs, his]
      ring
  · -- a node without flows
    obtain ⟨s0, h1, h2, h3⟩ := collected (th := th) hr hdt hin
    obtain ⟨g1, g2, g3, -, -, -, g7, g8, g9, -⟩ := h3
    have hmass : s.content.mass = 0 := by rw [← hr.content.moles, hmole, zero_mul]
    have hom : (flowsOf dt ops).outMoles = 0 := by
      show (outs ops).sum * dt = 0
      rw [hnone, zero_mul]
    obtain ⟨n1, n2, n3, n4⟩ := g7.none hno
    rw [n2] at g8
    rw [hom] at g9
    have hinf : (ops.foldl (Collect.run th) s0).influx = 0 := by
      rcases mul_eq_zero.1 g8 with h | h
      · exact h
      · exact absurd h hdt.ne'
    rw [← g2] at hmole
    generalize hs1 : ops.foldl (Collect.run th) s0 = s1 at *
    have hw0 : ¬ dblEps < s1.inflow.mweight := by rw [n1]; exact not_lt.2 dblEps_pos.le
    have ha : amounts dt s1 = ⟨0, 0, 0, 0⟩ := by
      unfold amounts
      simp only [g9, hmole, min_self, zero_mul, if_neg hw0, sub_self, zero_div, ite_self]
    obtain ⟨o, k1, k2, -, -⟩ := setState_spec (src := s1.content) (p := resetState s1.outflow) (by
      exact ⟨g1.outflow.1, g1.outflow.2⟩)
    refine ⟨s0, { s1 with
        dampingHeat := 0
        netHeat := s1.heatFlux
        outflow := setPressure s1.content.pressure o
        netFlux := 0
        through := 0 }, h1, ?_, ?_⟩
    · have e1 : startOutflow th (amounts dt s1) s1 = .ok (resetState s1.outflow) := by
        rw [ha]
        exact if_neg (lt_irrefl _)
      have e2 : ∀ s2 : FNode K, s2.influx = 0 → integrateNoVolume th s2 = .ok s2 := by
        intro s2 h
        exact if_neg (by rw [h]; exact lt_irrefl _)
      have e3 : ∀ s2 : FNode K, s2.content = s1.content → s2.outflow = resetState s1.outflow →
          finishOutflow th (amounts dt s1) s2 = .ok (setPressure s1.content.pressure o) := by
        intro s2 h h'
        unfold finishOutflow
        rw [ha, h, h']
        simp only [lt_irrefl, if_false, le_refl, if_true, k1]
      rw [hs1]
      unfold integrateFlows
      simp only [e1, if_neg (show ¬ 0 < s1.volume by rw [g3]; exact hv)]
      rw [e2 _ (by exact hinf)]
      dsimp only
      rw [e3 _ (by exact rfl) (by exact rfl)]
      simp only [ha, zero_mul, add_zero, sub_zero, hinf, min_self]
    · have hmix : Mixed (setPressure s1.content.pressure o) := by
        have := k2.mixed g1.mixed
        exact ⟨this.nonneg, this.massSum, this.moleSum, this.weight⟩
      have hfs : FlowShared (setPressure s1.content.pressure o) := k2.flow g1.flow
      have hsf : SameFluids s1.content (setPressure s1.content.pressure o) := ⟨k2.fluids.1, k2.fluids.2⟩
      refine ⟨⟨g1.weights, g1.mixed, g1.content, g1.flow, g1.moles, g1.mass, g1.inflow, hsf⟩, ?_, g3, ?_, ⟨hmix, hfs, ?_⟩, ?_⟩
      · show SameFluids s.content s1.content
        rw [g2]; exact SameFluids.refl _
      · intro i hi
        show (s1.content.parts i).massFraction * s1.content.mass = held s i + _ - _
        unfold held
        rw [g2, hmass, hom, n4 i]
        ring
      · rw [← g2]; exact hsf
      · intro h
        rw [hnone] at h
        exact absurd h (lt_irrefl _)
  · have hdt : 0 < dt := hm.dt
    have hout' : 0 < (flowsOf dt ops).outMoles := mul_pos hout hdt
    obtain ⟨s0, h1, h2, h3⟩ := collected (th := th) hr hdt hin
    obtain ⟨g1, g2, g3, -, -, g6, g7, g8, g9, g10, -⟩ := h3
    have hmass : s.content.mass = 0 := by rw [← hr.content.moles, hmole, zero_mul]
    obtain ⟨r0, c1, c2, c3, c4, c5, c6, -⟩ := c32_no_volume (th := th) hr hv hmole hin hne hm hout hp
    rw [← g2] at hm hp hmole
    obtain ⟨r, k1, k2, -, k3, -, -, k7, -, -, -, -, k9, k10, k11⟩ := node_step_no_volume (th := th) g1 hm
      (by rw [g3]; exact hv) hmole hne g7 (g10 hne) g8 g9 hout' hp
    have hres : nodeStep th dt ops s = .ok r := by unfold nodeStep; rw [h1]; exact k1
    have hrr : r0 = r := by rw [c1] at hres; injection hres
    subst hrr
    obtain ⟨c61, -⟩ := c6 heq
    rw [g2] at k9
    have hne0 : (flowsOf dt ops).fromContent s.content + (flowsOf dt ops).fromInflow s.content ≠ 0 := by
      unfold Flows.fromContent Flows.fromInflow
      rw [hmass, mul_zero, zero_add, c61, one_mul]
      rcases hm.inMass with h | h
      · exact absurd h hne
      · exact (dblEps_pos.trans h).ne'
    obtain ⟨m1, m2, -⟩ := k9.some hne0
    refine ⟨s0, r0, h1, k1, ⟨k10, by rw [← g2]; exact k3, k11.trans g3, ?_, ⟨m1, m2, k9.fluids⟩, ?_⟩⟩
    · intro i hi
      unfold held
      rw [c2, hmass, c5 i hi, c61]
      ring
    · intro _ hle
      exfalso
      rw [g2] at hmole
      rw [hmole] at hle
      exact absurd (mul_pos hout hdt) (not_lt.2 hle)

end Gunns.Fluid
