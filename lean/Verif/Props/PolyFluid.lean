import Verif.Fluid.PolyFluidLemmas
import Mathlib.Tactic.LinearCombination

/-!
# Fluid mixtures (C31)
-/

set_option linter.unusedSectionVars false

namespace Gunns.Props
open Gunns.Fluid Finset

variable {K : Type _} [Field K] [LinearOrder K] [IsStrictOrderedRing K]

/-! ## Adding flows -/

/-- **C31**. Adding a flow conserves the flow of each constituent, the total flow and the flow of heat, if the
source's constituents share its flow and the guard against small constituent flows does not act. -/
theorem c31_add_conserves {temp : (Nat → K) → K → K} {src p q : Poly K} {flow : K}
    (h : addState temp src flow p = .ok q) (hs : FlowShared src) (hf : dblEps ≤ |flow|) (ht : NoTinyParts src flow) :
    q.flowRate = p.flowRate + flow ∧
    (∀ i, i < p.n → (q.parts i).flowRate = (p.parts i).flowRate + flow * (src.parts i).massFraction) ∧
    q.enthalpy * q.flowRate = p.enthalpy * p.flowRate + src.enthalpy * flow := by
  have hsf : sourceFlow src flow = flow := if_neg (not_lt.2 hf)
  obtain ⟨-, -, h1, h2, -, -, -, h3, -⟩ := addState_ok h
  have := addState_flows h hs (by rw [hsf]; exact ht)
  rw [hsf] at h1 this h3
  refine ⟨h1, this, ?_⟩
  have hne : q.flowRate ≠ 0 := by
    intro c
    rw [c, abs_zero] at h2
    exact absurd dblEps_pos (not_lt.2 h2)
  rw [h3]
  field_simp
  ring

/-- A list of flows added one after the other; `none` if one of the calls throws. -/
def addAll (temp : (Nat → K) → K → K) : List (Poly K × K) → Poly K → Option (Poly K)
  | [], p => some p
  | (src, flow) :: l, p =>
    match addState temp src flow p with
    | .ok q => addAll temp l q
    | .thrown _ => none

/-- A flow that may be added: of the same fluids, a proper mixture, and not smaller than the guards. -/
structure Addable (p : Poly K) (a : Poly K × K) : Prop where
  same : SameFluids p a.1
  mixed : Mixed a.1
  shared : FlowShared a.1
  flow : dblEps ≤ a.2
  parts : NoTinyParts a.1 a.2

/-- What holds between additions. -/
structure Adding (p : Poly K) : Prop where
  weights : GoodWeights p
  nonneg : 0 ≤ p.flowRate
  parts : ∀ i, i < p.n → 0 ≤ (p.parts i).flowRate
  sum : |∑ i ∈ range p.n, (p.parts i).flowRate - p.flowRate| ≤ fltEps * p.flowRate

theorem add_step {temp : (Nat → K) → K → K} {p : Poly K} (hI : Adding p) {a : Poly K × K} (ha : Addable p a) :
    ∃ q, addState temp a.1 a.2 p = .ok q ∧ Adding q ∧ Mixed q ∧ FlowShared q ∧ SameFluids p q ∧
      ∑ i ∈ range q.n, (q.parts i).moleFraction = 1 ∧
      q.flowRate / q.mweight = ∑ i ∈ range q.n, (q.parts i).flowRate / q.mw i := by
  obtain ⟨src, flow⟩ := a
  have hdb := dblEps_pos (K := K)
  have hflow : dblEps ≤ flow := ha.flow
  have habs : dblEps ≤ |flow| := hflow.trans (le_abs_self _)
  have hsf : sourceFlow src flow = flow := if_neg (not_lt.2 habs)
  have hst : sameTypes p src = true := sameTypes_iff.2 ⟨ha.same.1, fun i hi => (ha.same.2 i hi).1⟩
  have hbig : ¬ |p.flowRate + sourceFlow src flow| < dblEps := by
    rw [hsf, not_lt]
    exact (le_add_of_nonneg_left hI.nonneg |>.trans' hflow).trans (le_abs_self _)
  cases hr : addState temp src flow p with
  | thrown x =>
    unfold addState at hr
    simp only [hst, Bool.not_true, Bool.false_eq_true, if_false, if_neg hbig] at hr
    cases hr
  | ok q =>
    obtain ⟨e1, e2, e3⟩ := c31_add_conserves hr ha.shared habs ha.parts
    obtain ⟨-, -, -, -, hqn, hqt, hmw, -⟩ := addState_ok hr
    have hpos : 0 < q.flowRate := by rw [e1]; linarith [hI.nonneg]
    have hn : src.n = p.n := ha.same.1.symm
    have hnn : ∀ i, i < p.n → 0 ≤ (q.parts i).flowRate := by
      intro i hi
      rw [e2 i hi]
      have := (ha.mixed.nonneg i (by rw [hn]; exact hi)).1
      exact add_nonneg (hI.parts i hi) (mul_nonneg (hdb.le.trans hflow) this)
    have hsum : |∑ i ∈ range p.n, (q.parts i).flowRate - q.flowRate| ≤ fltEps * q.flowRate := by
      have hms := ha.mixed.massSum
      rw [hn] at hms
      have e4 : ∑ i ∈ range p.n, (q.parts i).flowRate =
          ∑ i ∈ range p.n, (p.parts i).flowRate + flow * ∑ i ∈ range p.n, (src.parts i).massFraction := by
        rw [Finset.mul_sum, ← Finset.sum_add_distrib]
        exact Finset.sum_congr rfl (fun i hi => e2 i (mem_range.1 hi))
      have e5 : ∑ i ∈ range p.n, (q.parts i).flowRate - q.flowRate =
          (∑ i ∈ range p.n, (p.parts i).flowRate - p.flowRate) +
            flow * (∑ i ∈ range p.n, (src.parts i).massFraction - 1) := by
        rw [e4, e1]; ring
      rw [e5]
      refine (abs_add_le _ _).trans ?_
      rw [abs_mul, abs_of_nonneg (hdb.le.trans hflow), e1, mul_add]
      refine add_le_add hI.sum ?_
      rw [mul_comm]
      exact mul_le_mul_of_nonneg_right hms (hdb.le.trans hflow)
    obtain ⟨m1, m2, m3, m4⟩ := addState_mixed hr hI.weights hpos hnn hsum
    refine ⟨q, rfl, ⟨?_, hpos.le, ?_, ?_⟩, m1, m2, ⟨hqn.symm, fun i _ => ⟨by rw [hqt], by rw [hmw]⟩⟩, m3, m4⟩
    · intro i hi; rw [hqn] at hi; rw [hmw]; exact hI.weights i hi
    · intro i hi; rw [hqn] at hi; exact hnn i hi
    · rw [hqn]; exact hsum

/-- A mixture without flow. -/
theorem adding_reset {p : Poly K} (hw : GoodWeights p) : Adding (resetState p) := by
  have h0 : ∀ i, i < p.n → ((resetState p).parts i).flowRate = 0 := by
    intro i hi
    unfold resetState
    rw [each_parts (by exact hi)]
  refine ⟨hw, le_refl _, fun i hi => by rw [h0 i hi], ?_⟩
  show |∑ i ∈ range p.n, _ - (0 : K)| ≤ fltEps * 0
  rw [Finset.sum_congr rfl (fun i hi => h0 i (mem_range.1 hi))]
  simp

theorem addAll_spec {temp : (Nat → K) → K → K} (l : List (Poly K × K)) {p : Poly K} (hI : Adding p)
    (hl : ∀ a ∈ l, Addable p a) :
    ∃ q, addAll temp l p = some q ∧ Adding q ∧ SameFluids p q ∧
      q.flowRate = p.flowRate + (l.map (fun a => a.2)).sum ∧
      (∀ i, i < p.n → (q.parts i).flowRate =
        (p.parts i).flowRate + (l.map (fun a => a.2 * (a.1.parts i).massFraction)).sum) ∧
      q.enthalpy * q.flowRate = p.enthalpy * p.flowRate + (l.map (fun a => a.1.enthalpy * a.2)).sum ∧
      (l ≠ [] → Mixed q ∧ FlowShared q ∧ ∑ i ∈ range q.n, (q.parts i).moleFraction = 1 ∧
        q.flowRate / q.mweight = ∑ i ∈ range q.n, (q.parts i).flowRate / q.mw i) := by
  induction l generalizing p with
  | nil =>
    exact ⟨p, rfl, hI, ⟨rfl, fun i _ => ⟨rfl, rfl⟩⟩, by simp, by simp, by simp, fun c => absurd rfl c⟩
  | cons a l ih =>
    have ha := hl a (by simp)
    obtain ⟨q, h1, h2, h3, h4, h5, h6, h7⟩ := add_step (temp := temp) hI ha
    have habs : dblEps ≤ |a.2| := ha.flow.trans (le_abs_self _)
    obtain ⟨e1, e2, e3⟩ := c31_add_conserves h1 ha.shared habs ha.parts
    have htr : ∀ b ∈ l, Addable q b := by
      intro b hb
      have := hl b (by simp [hb])
      refine ⟨⟨h5.1.symm.trans this.same.1, ?_⟩, this.mixed, this.shared, this.flow, this.parts⟩
      intro i hi
      rw [← h5.1] at hi
      exact ⟨(h5.2 i hi).1.symm.trans (this.same.2 i hi).1, (h5.2 i hi).2.symm.trans (this.same.2 i hi).2⟩
    obtain ⟨r, g1, g2, g3, g4, g5, g6, g7⟩ := ih h2 htr
    have hsame : SameFluids p r := by
      refine ⟨h5.1.trans g3.1, fun i hi => ?_⟩
      have hi' : i < q.n := by rw [← h5.1]; exact hi
      exact ⟨(h5.2 i hi).1.trans (g3.2 i hi').1, (h5.2 i hi).2.trans (g3.2 i hi').2⟩
    refine ⟨r, ?_, g2, hsame, ?_, ?_, ?_, ?_⟩
    · obtain ⟨s, f⟩ := a
      rw [addAll, h1]; exact g1
    · rw [g4, e1, List.map_cons, List.sum_cons]; ring
    · intro i hi
      rw [g5 i (by rw [← h5.1]; exact hi), e2 i hi, List.map_cons, List.sum_cons]; ring
    · rw [g6, e3, List.map_cons, List.sum_cons]; ring
    · intro _
      cases l with
      | nil =>
        rw [addAll] at g1
        cases g1
        exact ⟨h3, h4, h6, h7⟩
      | cons b l => exact g7 (by simp)

/-- **C31**. Adding any flows, one after the other, to a mixture that was reset: no call throws, the flow of each
constituent is the sum of what was added of it, and so are the total flow and the heat; the result is a
proper mixture whose molecular weight is its mass flow by its mole flow. -/
theorem c31_mix {temp : (Nat → K) → K → K} {p : Poly K} (hw : GoodWeights p) (l : List (Poly K × K)) (hl0 : l ≠ [])
    (hl : ∀ a ∈ l, Addable p a) :
    ∃ q, addAll temp l (resetState p) = some q ∧
      q.flowRate = (l.map (fun a => a.2)).sum ∧
      (∀ i, i < p.n → (q.parts i).flowRate = (l.map (fun a => a.2 * (a.1.parts i).massFraction)).sum) ∧
      q.enthalpy * q.flowRate = (l.map (fun a => a.1.enthalpy * a.2)).sum ∧
      Mixed q ∧ FlowShared q ∧ ∑ i ∈ range q.n, (q.parts i).moleFraction = 1 ∧
      q.flowRate / q.mweight = ∑ i ∈ range q.n, (q.parts i).flowRate / q.mw i := by
  have hl' : ∀ a ∈ l, Addable (resetState p) a := by
    intro a ha
    have := hl a ha
    exact ⟨this.same, this.mixed, this.shared, this.flow, this.parts⟩
  obtain ⟨q, h1, -, -, h4, h5, h6, h7⟩ := addAll_spec (temp := temp) l (adding_reset hw) hl'
  obtain ⟨m1, m2, m3, m4⟩ := h7 hl0
  refine ⟨q, h1, ?_, ?_, ?_, m1, m2, m3, m4⟩
  · rw [h4]; show 0 + _ = _; rw [zero_add]
  · intro i hi
    rw [h5 i hi]
    unfold resetState
    rw [each_parts (by exact hi)]
    show 0 + _ = _
    rw [zero_add]
  · rw [h6]; show 0 * 0 + _ = _; rw [zero_mul, zero_add]

/-- **C31**. The mixture does not depend on the order of the additions. -/
theorem c31_mix_order {temp : (Nat → K) → K → K} {p q r : Poly K} (hw : GoodWeights p) {l l' : List (Poly K × K)}
    (hl0 : l ≠ []) (hl : ∀ a ∈ l, Addable p a) (hp : l.Perm l')
    (hq : addAll temp l (resetState p) = some q) (hr : addAll temp l' (resetState p) = some r) :
    q.flowRate = r.flowRate ∧ q.mweight = r.mweight ∧ q.enthalpy = r.enthalpy ∧
    ∀ i, i < p.n → (q.parts i).massFraction = (r.parts i).massFraction ∧
      (q.parts i).moleFraction = (r.parts i).moleFraction ∧ (q.parts i).flowRate = (r.parts i).flowRate := by
  have hl' : ∀ a ∈ l', Addable p a := fun a ha => hl a (hp.mem_iff.2 ha)
  have hl0' : l' ≠ [] := fun c => hl0 (by rw [c] at hp; exact hp.eq_nil)
  obtain ⟨q', h1, h2, h3, h4, h5, h6, -, h8⟩ := c31_mix (temp := temp) hw l hl0 hl
  obtain ⟨r', g1, g2, g3, g4, g5, g6, -, g8⟩ := c31_mix (temp := temp) hw l' hl0' hl'
  rw [hq] at h1; cases h1
  rw [hr] at g1; cases g1
  have hlr : ∀ a ∈ l, Addable (resetState p) a := fun a ha =>
    let t := hl a ha; ⟨t.same, t.mixed, t.shared, t.flow, t.parts⟩
  have hlr' : ∀ a ∈ l', Addable (resetState p) a := fun a ha =>
    let t := hl' a ha; ⟨t.same, t.mixed, t.shared, t.flow, t.parts⟩
  obtain ⟨q'', k1, -, k3, -⟩ := addAll_spec (temp := temp) l (adding_reset hw) hlr
  rw [hq] at k1; cases k1
  obtain ⟨r'', j1, -, j3, -⟩ := addAll_spec (temp := temp) l' (adding_reset hw) hlr'
  rw [hr] at j1; cases j1
  have hqn : q.n = p.n := k3.1.symm
  have hrn : r.n = p.n := j3.1.symm
  have e1 : q.flowRate = r.flowRate := by rw [h2, g2]; exact (hp.map _).sum_eq
  have hpos : 0 < q.flowRate := by
    rw [h2]
    have hdb := dblEps_pos (K := K)
    cases l with
    | nil => exact absurd rfl hl0
    | cons a l =>
      rw [List.map_cons, List.sum_cons]
      refine add_pos_of_pos_of_nonneg (lt_of_lt_of_le hdb (hl a (by simp)).flow) (List.sum_nonneg ?_)
      intro x hx
      obtain ⟨b, hb, rfl⟩ := List.mem_map.1 hx
      exact hdb.le.trans (hl b (by simp [hb])).flow
  have e2 : ∀ i, i < p.n → (q.parts i).flowRate = (r.parts i).flowRate := by
    intro i hi
    rw [h3 i hi, g3 i hi]; exact (hp.map _).sum_eq
  have e3 : ∀ i, i < p.n → (q.parts i).massFraction = (r.parts i).massFraction := by
    intro i hi
    have a1 := h6 i (by rw [hqn]; exact hi)
    have a2 := g6 i (by rw [hrn]; exact hi)
    rw [e2 i hi, a2, e1] at a1
    rw [e1] at hpos
    exact (mul_right_cancel₀ hpos.ne' a1).symm
  have e4 : q.mweight = r.mweight := by
    rw [hqn] at h8
    rw [hrn] at g8
    have : q.flowRate / q.mweight = r.flowRate / r.mweight := by
      rw [h8, g8]
      refine Finset.sum_congr rfl (fun i hi => ?_)
      have hi' := mem_range.1 hi
      rw [e2 i hi', ← (k3.2 i hi').2, ← (j3.2 i hi').2]
    have hq0 := h5.weight.1.ne'
    have hr0 := g5.weight.1.ne'
    rw [e1, div_eq_div_iff hq0 hr0] at this
    rw [e1] at hpos
    exact (mul_left_cancel₀ hpos.ne' this).symm
  refine ⟨e1, e4, ?_, ?_⟩
  · have : q.enthalpy * q.flowRate = r.enthalpy * r.flowRate := by
      rw [h4, g4]; exact (hp.map _).sum_eq
    rw [e1] at this hpos
    exact mul_right_cancel₀ hpos.ne' this
  · intro i hi
    refine ⟨e3 i hi, ?_, e2 i hi⟩
    have a1 := h5.weight.2 i (by rw [hqn]; exact hi)
    have a2 := g5.weight.2 i (by rw [hrn]; exact hi)
    have w1 : q.mw i = p.mw i := (k3.2 i hi).2.symm
    have w2 : r.mw i = p.mw i := (j3.2 i hi).2.symm
    rw [w1, e3 i hi, e4, ← a2, w2] at a1
    exact mul_right_cancel₀ (hw.pos hi).ne' a1

/-! ## Setting fractions and amounts -/

/-- **C31**. `setMassAndMassFractions` throws, and then changes nothing, exactly if the fractions do not add up to
one within the tolerance; otherwise (for fractions that are not negative) it leaves a proper mixture of the
given mass in which mass, moles and flow are shared out by the fractions, and the fractions are those given
divided by a common factor. -/
theorem c31_set_mass_fractions {p : Poly K} (hw : GoodWeights p) (mass : K) {f : Nat → K}
    (hf : ∀ i, i < p.n → 0 ≤ f i) :
    (fractionTolerance < |∑ i ∈ range p.n, f i - 1| ∧ setMassAndMassFractions mass f p = .thrown p) ∨
    (|∑ i ∈ range p.n, f i - 1| ≤ fractionTolerance ∧
      ∃ q c, setMassAndMassFractions mass f p = .ok q ∧ Mixed q ∧ ContentShared q ∧ FlowShared q ∧ q.mass = mass ∧
        q.flowRate = p.flowRate ∧ SameFluids p q ∧ 0 < c ∧
        (∀ i, i < p.n → (q.parts i).massFraction * c = f i) ∧
        (∑ i ∈ range p.n, f i = 1 → c = 1)) := by
  by_cases h : fractionTolerance < |∑ i ∈ range p.n, f i - 1|
  · left
    refine ⟨h, ?_⟩
    unfold setMassAndMassFractions
    rw [normalise_none_iff.2 h]
  · right
    obtain ⟨g, hg⟩ := normalise_some_of (not_lt.1 h)
    have hok : ∃ q, setMassAndMassFractions mass f p = .ok q := by
      unfold setMassAndMassFractions; rw [hg]; exact ⟨_, rfl⟩
    obtain ⟨q, hq⟩ := hok
    obtain ⟨h1, h2, h3, h4, h5, h6, -, g', h8, h9⟩ := setMassFractions_spec hw hf hq
    rw [hg] at h8; cases h8
    obtain ⟨-, hcase, -⟩ := normalise_spec hg
    rcases hcase with ⟨-, rfl⟩ | ⟨hlt, hgf, -⟩
    · exact ⟨not_lt.1 h, q, 1, hq, h1, h2, h3, h4, h5, h6, one_pos, fun i hi => by rw [h9 i hi, mul_one], fun _ => rfl⟩
    · have hpos : (0 : K) < ∑ j ∈ range p.n, f j := by
        have := (abs_le.1 (not_lt.1 h)).1
        have := tol_half (K := K)
        linarith
      refine ⟨not_lt.1 h, q, ∑ j ∈ range p.n, f j, hq, h1, h2, h3, h4, h5, h6, hpos, ?_, fun c => c⟩
      intro i hi
      rw [h9 i hi, hgf]
      exact div_mul_cancel₀ _ hpos.ne'

/-- **C31**. The same for `setMoleAndMoleFractions`. -/
theorem c31_set_mole_fractions {p : Poly K} (hw : GoodWeights p) (mole : K) {f : Nat → K}
    (hf : ∀ i, i < p.n → 0 ≤ f i) :
    (fractionTolerance < |∑ i ∈ range p.n, f i - 1| ∧ setMoleAndMoleFractions mole f p = .thrown p) ∨
    (|∑ i ∈ range p.n, f i - 1| ≤ fractionTolerance ∧
      ∃ q c, setMoleAndMoleFractions mole f p = .ok q ∧ Mixed q ∧ ContentShared q ∧ FlowShared q ∧ q.mole = mole ∧
        q.flowRate = p.flowRate ∧ SameFluids p q ∧ 0 < c ∧
        (∀ i, i < p.n → (q.parts i).moleFraction * c = f i) ∧
        (∑ i ∈ range p.n, f i = 1 → c = 1)) := by
  by_cases h : fractionTolerance < |∑ i ∈ range p.n, f i - 1|
  · left
    refine ⟨h, ?_⟩
    unfold setMoleAndMoleFractions
    rw [normalise_none_iff.2 h]
  · right
    obtain ⟨g, hg⟩ := normalise_some_of (not_lt.1 h)
    have hok : ∃ q, setMoleAndMoleFractions mole f p = .ok q := by
      unfold setMoleAndMoleFractions; rw [hg]; exact ⟨_, rfl⟩
    obtain ⟨q, hq⟩ := hok
    obtain ⟨h1, h2, h3, h4, h5, h6, -, g', h8, h9⟩ := setMoleFractions_spec hw hf hq
    rw [hg] at h8; cases h8
    obtain ⟨-, hcase, -⟩ := normalise_spec hg
    rcases hcase with ⟨-, rfl⟩ | ⟨hlt, hgf, -⟩
    · exact ⟨not_lt.1 h, q, 1, hq, h1, h2, h3, h4, h5, h6, one_pos, fun i hi => by rw [h9 i hi, mul_one], fun _ => rfl⟩
    · have hpos : (0 : K) < ∑ j ∈ range p.n, f j := by
        have := (abs_le.1 (not_lt.1 h)).1
        have := tol_half (K := K)
        linarith
      refine ⟨not_lt.1 h, q, ∑ j ∈ range p.n, f j, hq, h1, h2, h3, h4, h5, h6, hpos, ?_, fun c => c⟩
      intro i hi
      rw [h9 i hi, hgf]
      exact div_mul_cancel₀ _ hpos.ne'

/-- **C31**. Round trip: setting the moles and mole fractions that a mixture got from its mass and mass fractions
gives back the mass and moles of every constituent. -/
theorem c31_round_trip {p q : Poly K} (hw : GoodWeights p) {mass : K} {f : Nat → K} (hf : ∀ i, i < p.n → 0 ≤ f i)
    (h : setMassAndMassFractions mass f p = .ok q) :
    ∃ r, setMoleAndMoleFractions q.mole (fun i => (q.parts i).moleFraction) q = .ok r ∧
      ∀ i, i < p.n → (r.parts i).mass = (q.parts i).mass ∧ (r.parts i).mole = (q.parts i).mole ∧
        (r.parts i).moleFraction = (q.parts i).moleFraction := by
  obtain ⟨h1, h2, -, -, -, h6, h7, -⟩ := setMassFractions_spec hw hf h
  have hqw : GoodWeights q := by
    intro i hi
    rw [← h6.1] at hi
    rw [← (h6.2 i hi).2]; exact hw i hi
  have hclose : |∑ i ∈ range q.n, (q.parts i).moleFraction - 1| ≤ fltEps := h1.moleSum
  have hnn : ∀ i, i < q.n → 0 ≤ (q.parts i).moleFraction := fun i hi => (h1.nonneg i hi).2
  have hnorm := normalise_of_close hclose
  have hok : ∃ r, setMoleAndMoleFractions q.mole (fun i => (q.parts i).moleFraction) q = .ok r := by
    unfold setMoleAndMoleFractions; rw [hnorm]; exact ⟨_, rfl⟩
  obtain ⟨r, hr⟩ := hok
  obtain ⟨g1, g2, -, g4, -, g6, -, g, g8, g9⟩ := setMoleFractions_spec hqw hnn hr
  rw [hnorm] at g8; cases g8
  refine ⟨r, hr, ?_⟩
  intro i hi
  have hiq : i < q.n := by rw [← h6.1]; exact hi
  have hir : i < r.n := by rw [← g6.1]; exact hiq
  have e0 := g9 i hiq
  simp only at e0
  have hmwr : r.mw i = q.mw i := (g6.2 i hiq).2.symm
  have hmwpos := hqw.pos hiq
  have em : (r.parts i).mass = (q.parts i).mass := by
    rw [g2.mass i hir, h2.mass i hiq, ← g2.moles, ← h2.moles, g4]
    have a1 := g1.weight.2 i hir
    have a2 := h1.weight.2 i hiq
    rw [e0, hmwr] at a1
    calc (r.parts i).massFraction * (q.mole * r.mweight)
        = q.mole * ((r.parts i).massFraction * r.mweight) := by ring
      _ = q.mole * ((q.parts i).massFraction * q.mweight) := by rw [← a1, a2]
      _ = _ := by ring
  refine ⟨em, ?_, e0⟩
  have a1 := g2.mole i hir
  have a2 := h2.mole i hiq
  rw [em, ← a2, hmwr] at a1
  exact mul_right_cancel₀ hmwpos.ne' a1

/-- The molecular weight of a proper mixture is the mean of the molecular weights, up to the tolerance. -/
theorem c31_mean_weight {p : Poly K} (h : Mixed p) :
    |∑ i ∈ range p.n, (p.parts i).moleFraction * p.mw i - p.mweight| ≤ fltEps * p.mweight := by
  have : ∑ i ∈ range p.n, (p.parts i).moleFraction * p.mw i =
      (∑ i ∈ range p.n, (p.parts i).massFraction) * p.mweight := by
    rw [Finset.sum_mul]
    exact Finset.sum_congr rfl (fun i hi => h.weight.2 i (mem_range.1 hi))
  rw [this]
  have e : (∑ i ∈ range p.n, (p.parts i).massFraction) * p.mweight - p.mweight =
      (∑ i ∈ range p.n, (p.parts i).massFraction - 1) * p.mweight := by ring
  rw [e, abs_mul, abs_of_pos h.weight.1]
  exact mul_le_mul_of_nonneg_right h.massSum h.weight.1.le

/-- The molecular weight of a proper mixture is well above the guard. -/
theorem mweight_ge {p : Poly K} (hw : GoodWeights p) (h : Mixed p) : dblEps ≤ p.mweight := by
  have hdb := dblEps_pos (K := K)
  have h1 : 2 * dblEps * ∑ i ∈ range p.n, (p.parts i).moleFraction ≤
      (∑ i ∈ range p.n, (p.parts i).massFraction) * p.mweight := by
    rw [Finset.mul_sum, Finset.sum_mul]
    refine Finset.sum_le_sum (fun i hi => ?_)
    have hi' := mem_range.1 hi
    rw [← h.weight.2 i hi', mul_comm]
    exact mul_le_mul_of_nonneg_left (hw i hi').1 (h.nonneg i hi').2
  have hf : (fltEps : K) ≤ 1 / 3 := by unfold fltEps; norm_num
  have h2 := (abs_le.1 h.moleSum).1
  have h3 := (abs_le.1 h.massSum).2
  have h4 : (∑ i ∈ range p.n, (p.parts i).massFraction) * p.mweight ≤ (4 / 3) * p.mweight :=
    mul_le_mul_of_nonneg_right (by linarith) h.weight.1.le
  have h5 : 2 * dblEps * (2 / 3) ≤ 2 * dblEps * ∑ i ∈ range p.n, (p.parts i).moleFraction :=
    mul_le_mul_of_nonneg_left (by linarith) (by linarith)
  linarith

/-- What can be done to a mixture: set its mass, moles or flow rate, set its composition, or set the masses of
its constituents and update the mixture from these. -/
inductive MixOp (K : Type _)
  | mass (m : K)
  | mole (m : K)
  | flow (f : K)
  | massFractions (m : K) (f : Nat → K)
  | moleFractions (m : K) (f : Nat → K)
  | parts (m : Nat → K)

/-- The mixture after an operation (also if it throws). -/
def MixOp.run (p : Poly K) : MixOp K → Poly K
  | .mass m => setMass m p
  | .mole m => setMole m p
  | .flow f => setFlowRate f p
  | .massFractions m f => (setMassAndMassFractions m f p).state
  | .moleFractions m f => (setMoleAndMoleFractions m f p).state
  | .parts m => updateMass (loop (fun i q => (setPartMass (i : Int) (m i) q).state) p.n p)

/-- Fractions and masses given are not negative; the total mass and moles set are not below `DBL_EPSILON`. -/
def MixOp.Ok (p : Poly K) : MixOp K → Prop
  | .massFractions _ f => ∀ i, i < p.n → 0 ≤ f i
  | .moleFractions _ f => ∀ i, i < p.n → 0 ≤ f i
  | .parts m => (∀ i, i < p.n → 0 ≤ m i) ∧ dblEps ≤ ∑ i ∈ range p.n, m i ∧ dblEps ≤ ∑ i ∈ range p.n, m i / p.mw i
  | _ => True

/-- Operations that do not update from the constituents. -/
def MixOp.Whole : MixOp K → Prop
  | .parts _ => False
  | _ => True

theorem setParts_spec (p : Poly K) (m : Nat → K) :
    loop (fun i q => (setPartMass (i : Int) (m i) q).state) p.n p =
      { p with parts := fun i => if i < p.n then (p.parts i).setMass (p.mw i) (m i) else p.parts i } := by
  have : ∀ k, k ≤ p.n → loop (fun i q => (setPartMass (i : Int) (m i) q).state) k p =
      { p with parts := fun i => if i < k then (p.parts i).setMass (p.mw i) (m i) else p.parts i } := by
    intro k
    induction k with
    | zero => intro _; simp
    | succ k ih =>
      intro hk
      rw [loop_succ, ih (by omega)]
      unfold setPartMass
      rw [if_neg (by push Not; exact ⟨by omega, by show (k : Int) < p.n; omega⟩)]
      show Poly.mk .. = Poly.mk ..
      congr 1
      funext i
      have hk' : (k : Int).toNat = k := by simp
      by_cases h1 : i = k
      · subst h1; simp
      · simp only [hk', h1, if_false]
        by_cases h2 : i < k
        · rw [if_pos h2, if_pos (by omega)]
        · rw [if_neg h2, if_neg (by omega)]
  exact this p.n (le_refl _)

theorem update_spec {p : Poly K} (hw : GoodWeights p) (hm : ∀ i, i < p.n → 0 ≤ (p.parts i).mass)
    (hp : ∀ i, i < p.n → (p.parts i).mole * p.mw i = (p.parts i).mass)
    (h1 : dblEps ≤ ∑ i ∈ range p.n, (p.parts i).mass) (h2 : dblEps ≤ ∑ i ∈ range p.n, (p.parts i).mass / p.mw i) :
    Mixed (updateMass p) ∧ ContentShared (updateMass p) ∧ SameFluids p (updateMass p) ∧
      (updateMass p).mass = ∑ i ∈ range p.n, (p.parts i).mass ∧
      ∀ i, i < p.n → ((updateMass p).parts i).mass = (p.parts i).mass := by
  have hdb := dblEps_pos (K := K)
  have e1 : innerLimit dblEps (total p.n (fun i => (p.parts i).mass)) = ∑ i ∈ range p.n, (p.parts i).mass := by
    rw [total_eq_sum]; exact innerLimit_of_ge h1
  have e2 : innerLimit dblEps (total p.n (fun i => (p.parts i).mass / p.mw i)) =
      ∑ i ∈ range p.n, (p.parts i).mass / p.mw i := by
    rw [total_eq_sum]; exact innerLimit_of_ge h2
  have hM : 0 < ∑ i ∈ range p.n, (p.parts i).mass := lt_of_lt_of_le hdb h1
  have hN : 0 < ∑ i ∈ range p.n, (p.parts i).mass / p.mw i := lt_of_lt_of_le hdb h2
  unfold updateMass
  simp only [e1, e2]
  generalize hMe : ∑ i ∈ range p.n, (p.parts i).mass = M at *
  generalize hNe : ∑ i ∈ range p.n, (p.parts i).mass / p.mw i = N at *
  have hpart : ∀ i, i < p.n → (Poly.each { p with
      mass := M
      mole := N
      mweight := M / N }
    (fun i c => { c with
      massFraction := c.mass / M
      moleFraction := c.mass / p.mw i / N })).parts i = { p.parts i with
        massFraction := (p.parts i).mass / M
        moleFraction := (p.parts i).mass / p.mw i / N } := fun i hi => by rw [each_parts (by exact hi)]
  have s1 : ∑ i ∈ range p.n, (p.parts i).mass / M = 1 := by rw [← Finset.sum_div, hMe, div_self hM.ne']
  have s2 : ∑ i ∈ range p.n, (p.parts i).mass / p.mw i / N = 1 := by rw [← Finset.sum_div, hNe, div_self hN.ne']
  refine ⟨⟨?_, ?_, ?_, ?_⟩, ⟨?_, ?_, ?_⟩, ⟨rfl, fun i _ => ⟨rfl, rfl⟩⟩, rfl, ?_⟩
  · intro i hi; rw [hpart i hi]
    exact ⟨div_nonneg (hm i hi) hM.le, div_nonneg (div_nonneg (hm i hi) (hw.pos hi).le) hN.le⟩
  · show |∑ i ∈ range p.n, _ - 1| ≤ fltEps
    rw [Finset.sum_congr rfl (fun i hi => by rw [hpart i (mem_range.1 hi)])]
    show |∑ i ∈ range p.n, (p.parts i).mass / M - 1| ≤ fltEps
    rw [s1, sub_self, abs_zero]; exact fltEps_pos.le
  · show |∑ i ∈ range p.n, _ - 1| ≤ fltEps
    rw [Finset.sum_congr rfl (fun i hi => by rw [hpart i (mem_range.1 hi)])]
    show |∑ i ∈ range p.n, (p.parts i).mass / p.mw i / N - 1| ≤ fltEps
    rw [s2, sub_self, abs_zero]; exact fltEps_pos.le
  · refine ⟨div_pos hM hN, ?_⟩
    intro i hi; rw [hpart i hi]
    have := (hw.pos hi).ne'
    show (p.parts i).mass / p.mw i / N * p.mw i = (p.parts i).mass / M * (M / N)
    field_simp
  · intro i hi; rw [hpart i hi]
    show (p.parts i).mass = (p.parts i).mass / M * M
    rw [div_mul_cancel₀ _ hM.ne']
  · intro i hi; rw [hpart i hi]; exact hp i hi
  · show N * (M / N) = M
    field_simp
  · intro i hi; rw [hpart i hi]

theorem mixOp_inv {p : Poly K} (hw : GoodWeights p) (h1 : Mixed p) (h2 : ContentShared p) {o : MixOp K} (ho : o.Ok p) :
    Mixed (o.run p) ∧ ContentShared (o.run p) ∧ SameFluids p (o.run p) ∧
      (FlowShared p → o.Whole → FlowShared (o.run p)) := by
  have hsame : SameFluids p p := ⟨rfl, fun i _ => ⟨rfl, rfl⟩⟩
  cases o with
  | mass m =>
    have hwt : innerLimit dblEps p.mweight = p.mweight := innerLimit_of_ge (mweight_ge hw h1)
    show Mixed (setMass m p) ∧ ContentShared (setMass m p) ∧ SameFluids p (setMass m p) ∧ (_ → _ → FlowShared (setMass m p))
    have hpart : ∀ i, i < p.n → (setMass m p).parts i = (p.parts i).setMass (p.mw i) ((p.parts i).massFraction * m) :=
      fun i hi => by unfold setMass; rw [each_parts (by exact hi)]
    refine ⟨⟨?_, ?_, ?_, ?_⟩, ⟨?_, ?_, ?_⟩, hsame, ?_⟩
    · intro i hi; rw [hpart i hi]; exact h1.nonneg i hi
    · show |∑ i ∈ range p.n, _ - 1| ≤ fltEps
      rw [Finset.sum_congr rfl (fun i hi => by rw [hpart i (mem_range.1 hi)])]
      exact h1.massSum
    · show |∑ i ∈ range p.n, _ - 1| ≤ fltEps
      rw [Finset.sum_congr rfl (fun i hi => by rw [hpart i (mem_range.1 hi)])]
      exact h1.moleSum
    · show 0 < innerLimit dblEps p.mweight ∧ _
      rw [hwt]
      refine ⟨h1.weight.1, fun i hi => ?_⟩
      rw [hpart i hi]
      show _ = _ * innerLimit dblEps p.mweight
      rw [hwt]
      exact h1.weight.2 i hi
    · intro i hi; rw [hpart i hi]; rfl
    · intro i hi; rw [hpart i hi]; exact div_mul_cancel₀ _ (hw.pos hi).ne'
    · show m / innerLimit dblEps p.mweight * innerLimit dblEps p.mweight = m
      rw [hwt]; exact div_mul_cancel₀ _ h1.weight.1.ne'
    · intro hfs _ i hi; rw [hpart i hi]; exact hfs i hi
  | mole m =>
    show Mixed (setMole m p) ∧ ContentShared (setMole m p) ∧ SameFluids p (setMole m p) ∧ (_ → _ → FlowShared (setMole m p))
    have hpart : ∀ i, i < p.n → (setMole m p).parts i = (p.parts i).setMole (p.mw i) ((p.parts i).moleFraction * m) :=
      fun i hi => by unfold setMole; rw [each_parts (by exact hi)]
    refine ⟨⟨?_, ?_, ?_, ?_⟩, ⟨?_, ?_, ?_⟩, hsame, ?_⟩
    · intro i hi; rw [hpart i hi]; exact h1.nonneg i hi
    · show |∑ i ∈ range p.n, _ - 1| ≤ fltEps
      rw [Finset.sum_congr rfl (fun i hi => by rw [hpart i (mem_range.1 hi)])]
      exact h1.massSum
    · show |∑ i ∈ range p.n, _ - 1| ≤ fltEps
      rw [Finset.sum_congr rfl (fun i hi => by rw [hpart i (mem_range.1 hi)])]
      exact h1.moleSum
    · exact ⟨h1.weight.1, fun i hi => by rw [hpart i hi]; exact h1.weight.2 i hi⟩
    · intro i hi; rw [hpart i hi]
      show (p.parts i).moleFraction * m * p.mw i = (p.parts i).massFraction * (m * p.mweight)
      have := h1.weight.2 i hi
      linear_combination m * this
    · intro i hi; rw [hpart i hi]; rfl
    · rfl
    · intro hfs _ i hi; rw [hpart i hi]; exact hfs i hi
  | flow f =>
    show Mixed (setFlowRate f p) ∧ ContentShared (setFlowRate f p) ∧ SameFluids p (setFlowRate f p) ∧ (_ → _ → FlowShared (setFlowRate f p))
    have hpart : ∀ i, i < p.n → (setFlowRate f p).parts i =
        { p.parts i with flowRate := (p.parts i).massFraction * f } :=
      fun i hi => by unfold setFlowRate; rw [each_parts (by exact hi)]
    refine ⟨⟨?_, ?_, ?_, ?_⟩, ⟨?_, ?_, ?_⟩, hsame, ?_⟩
    · intro i hi; rw [hpart i hi]; exact h1.nonneg i hi
    · show |∑ i ∈ range p.n, _ - 1| ≤ fltEps
      rw [Finset.sum_congr rfl (fun i hi => by rw [hpart i (mem_range.1 hi)])]
      exact h1.massSum
    · show |∑ i ∈ range p.n, _ - 1| ≤ fltEps
      rw [Finset.sum_congr rfl (fun i hi => by rw [hpart i (mem_range.1 hi)])]
      exact h1.moleSum
    · exact ⟨h1.weight.1, fun i hi => by rw [hpart i hi]; exact h1.weight.2 i hi⟩
    · intro i hi; rw [hpart i hi]; exact h2.mass i hi
    · intro i hi; rw [hpart i hi]; exact h2.mole i hi
    · exact h2.moles
    · intro _ _ i hi; rw [hpart i hi]; rfl
  | massFractions m f =>
    rcases c31_set_mass_fractions hw m ho with ⟨-, h⟩ | ⟨-, q, c, h, g1, g2, g3, -, -, g6, -⟩
    · show Mixed (setMassAndMassFractions m f p).state ∧ ContentShared (setMassAndMassFractions m f p).state ∧
        SameFluids p (setMassAndMassFractions m f p).state ∧
        (_ → _ → FlowShared (setMassAndMassFractions m f p).state)
      rw [h]; exact ⟨h1, h2, hsame, fun h _ => h⟩
    · show Mixed (setMassAndMassFractions m f p).state ∧ ContentShared (setMassAndMassFractions m f p).state ∧
        SameFluids p (setMassAndMassFractions m f p).state ∧
        (_ → _ → FlowShared (setMassAndMassFractions m f p).state)
      rw [h]; exact ⟨g1, g2, g6, fun _ _ => g3⟩
  | moleFractions m f =>
    rcases c31_set_mole_fractions hw m ho with ⟨-, h⟩ | ⟨-, q, c, h, g1, g2, g3, -, -, g6, -⟩
    · show Mixed (setMoleAndMoleFractions m f p).state ∧ ContentShared (setMoleAndMoleFractions m f p).state ∧
        SameFluids p (setMoleAndMoleFractions m f p).state ∧
        (_ → _ → FlowShared (setMoleAndMoleFractions m f p).state)
      rw [h]; exact ⟨h1, h2, hsame, fun h _ => h⟩
    · show Mixed (setMoleAndMoleFractions m f p).state ∧ ContentShared (setMoleAndMoleFractions m f p).state ∧
        SameFluids p (setMoleAndMoleFractions m f p).state ∧
        (_ → _ → FlowShared (setMoleAndMoleFractions m f p).state)
      rw [h]; exact ⟨g1, g2, g6, fun _ _ => g3⟩
  | parts m =>
    obtain ⟨o1, o2, o3⟩ := ho
    show Mixed (updateMass (loop (fun i q => (setPartMass (i : Int) (m i) q).state) p.n p)) ∧
      ContentShared (updateMass (loop (fun i q => (setPartMass (i : Int) (m i) q).state) p.n p)) ∧
      SameFluids p (updateMass (loop (fun i q => (setPartMass (i : Int) (m i) q).state) p.n p)) ∧ (_ → False → _)
    rw [setParts_spec]
    have hpart : ∀ i, i < p.n → (if i < p.n then (p.parts i).setMass (p.mw i) (m i) else p.parts i) =
        (p.parts i).setMass (p.mw i) (m i) := fun i hi => if_pos hi
    have := update_spec (p := { p with parts := fun i =>
        if i < p.n then (p.parts i).setMass (p.mw i) (m i) else p.parts i }) hw
      (by intro i hi; show 0 ≤ (if i < p.n then _ else _ : Part K).mass; rw [if_pos hi]; exact o1 i hi)
      (by
        intro i hi
        show (if i < p.n then _ else _ : Part K).mole * p.mw i = (if i < p.n then _ else _ : Part K).mass
        rw [if_pos hi]; exact div_mul_cancel₀ _ (hw.pos hi).ne')
      (by
        show _ ≤ ∑ i ∈ range p.n, (if i < p.n then _ else _ : Part K).mass
        rw [Finset.sum_congr rfl (fun i hi => by rw [if_pos (mem_range.1 hi)])]; exact o2)
      (by
        show _ ≤ ∑ i ∈ range p.n, (if i < p.n then _ else _ : Part K).mass / p.mw i
        rw [Finset.sum_congr rfl (fun i hi => by rw [if_pos (mem_range.1 hi)])]; exact o3)
    exact ⟨this.1, this.2.1, this.2.2.1, fun _ c => c.elim⟩

/-- **C31**. A proper mixture stays one over every history of settings: fractions not negative and of sum one,
molecular weight the mean, mass and moles shared out by the fractions; and the flow stays shared out if no
update from the constituents is among them. -/
theorem c31_history (os : List (MixOp K)) {p : Poly K} (hw : GoodWeights p) (h1 : Mixed p) (h2 : ContentShared p)
    (ho : ∀ o ∈ os, o.Ok p) :
    Mixed (os.foldl MixOp.run p) ∧ ContentShared (os.foldl MixOp.run p) ∧ SameFluids p (os.foldl MixOp.run p) ∧
      (FlowShared p → (∀ o ∈ os, o.Whole) → FlowShared (os.foldl MixOp.run p)) := by
  induction os generalizing p with
  | nil => exact ⟨h1, h2, ⟨rfl, fun i _ => ⟨rfl, rfl⟩⟩, fun h _ => h⟩
  | cons o os ih =>
    obtain ⟨g1, g2, g3, g4⟩ := mixOp_inv hw h1 h2 (ho o (by simp))
    have hw' : GoodWeights (o.run p) := by
      intro i hi
      rw [← g3.1] at hi
      rw [← (g3.2 i hi).2]; exact hw i hi
    have ho' : ∀ o' ∈ os, o'.Ok (o.run p) := by
      intro o' ho'
      have := ho o' (by simp [ho'])
      cases o' with
      | mass m => trivial
      | mole m => trivial
      | flow m => trivial
      | massFractions m f => intro i hi; exact this i (by rw [g3.1]; exact hi)
      | moleFractions m f => intro i hi; exact this i (by rw [g3.1]; exact hi)
      | parts m =>
        obtain ⟨a, b, c⟩ := this
        refine ⟨fun i hi => a i (by rw [g3.1]; exact hi), by rw [← g3.1]; exact b, ?_⟩
        rw [← g3.1]
        rw [Finset.sum_congr rfl (fun i hi => by rw [← (g3.2 i (mem_range.1 hi)).2])]
        exact c
    obtain ⟨f1, f2, f3, f4⟩ := ih hw' g1 g2 ho'
    refine ⟨f1, f2, ⟨g3.1.trans f3.1, fun i hi => ?_⟩, fun hfs hwh => ?_⟩
    · have hi' : i < (o.run p).n := by rw [← g3.1]; exact hi
      exact ⟨(g3.2 i hi).1.trans (f3.2 i hi').1, (g3.2 i hi).2.trans (f3.2 i hi').2⟩
    · exact f4 (g4 hfs (hwh o (by simp))) (fun o' ho' => hwh o' (by simp [ho']))

/-- **C31**. A mixture initialised with fractions that add up to one (to single precision) is proper. -/
theorem c31_init {n : Nat} {types : Nat → Nat} {mw : Nat → K} {d : Input K} {p : Poly K}
    (hw : ∀ i, i < n → 2 * dblEps ≤ mw i ∧ 2 * dblEps * mw i ≤ 1) (hf : ∀ i, i < n → 0 ≤ d.fractions i)
    (hs : |∑ i ∈ range n, d.fractions i - 1| ≤ fltEps) (h : initialise n types mw d = some p) :
    Mixed p ∧ ContentShared p ∧ FlowShared p ∧ GoodWeights p := by
  unfold initialise at h
  rw [normalise_of_close hs] at h
  split_ifs at h with hbad
  have hpos : ∀ i, i < n → 0 < mw i := fun i hi => lt_of_lt_of_le (mul_pos two_pos dblEps_pos) (hw i hi).1
  have hge := perMass_ge hf (fun i hi => ⟨hpos i hi, (hw i hi).2⟩)
  have hS := half_le_of_close hs
  have hdb := dblEps_pos (K := K)
  have hge2 : dblEps ≤ ∑ i ∈ range n, d.fractions i / mw i := by
    have := mul_le_mul_of_nonneg_left hS (mul_pos two_pos hdb).le
    linarith
  have hm : innerLimit dblEps (total n (fun i => d.fractions i / mw i)) = ∑ i ∈ range n, d.fractions i / mw i := by
    rw [total_eq_sum]; exact innerLimit_of_ge hge2
  simp only [hm] at h
  have hm0 : 0 < ∑ i ∈ range n, d.fractions i / mw i := lt_of_lt_of_le hdb hge2
  generalize hM : ∑ i ∈ range n, d.fractions i / mw i = m at *
  obtain ⟨m1, m2, m3⟩ := mole_of_mass hM.symm hm0 hpos hf
  cases h
  refine ⟨⟨fun i hi => ⟨hf i hi, m1 i hi⟩, hs, ?_, one_div_pos.2 hm0, m3⟩, ⟨fun i hi => rfl, ?_, ?_⟩, fun i hi => rfl, hw⟩
  · show |∑ i ∈ range n, d.fractions i / mw i / m - 1| ≤ fltEps
    rw [m2, sub_self, abs_zero]; exact fltEps_pos.le
  · intro i hi; exact div_mul_cancel₀ _ (hpos i hi).ne'
  · show d.mass / (1 / m) * (1 / m) = d.mass
    field_simp

/-! ## Limits and exceptions -/

/-- Some mixture of two fluids of molecular weights 2 and 4, with mass fractions `x` and `1 - x`. -/
def twoFluids (x flow mass : ℚ) : Poly ℚ :=
  { n := 2, types := id, mw := fun i => if i = 0 then 2 else 4, temperature := 300, pressure := 100, flowRate := flow,
    mass := mass, mole := mass * (x / 2 + (1 - x) / 4), mweight := 1 / (x / 2 + (1 - x) / 4), enthalpy := 1000,
    parts := fun i =>
      let f := if i = 0 then x else 1 - x
      let w : ℚ := if i = 0 then 2 else 4
      { massFraction := f, moleFraction := f / w / (x / 2 + (1 - x) / 4), temperature := 300, pressure := 100,
        flowRate := f * flow, mass := f * mass, mole := f * mass / w } }

/-- Some temperature function. -/
def someTemp : (Nat → ℚ) → ℚ → ℚ := fun _ h => h

/-- The flow of both constituents and the mass fractions after adding. -/
def flowsAfter (r : Res (Poly ℚ)) : Option (ℚ × ℚ × ℚ) :=
  match r with
  | .ok q => some (q.flowRate, (q.parts 0).massFraction, (q.parts 1).massFraction)
  | .thrown _ => none

theorem goodWeights_two (x f m : ℚ) : GoodWeights (twoFluids x f m) := by
  intro i hi
  have : i = 0 ∨ i = 1 := by have : i < 2 := hi; omega
  rcases this with rfl | rfl <;> (simp only [twoFluids, dblEps]; norm_num)

/-- Non-vacuity: two flows mixed from a reset mixture give the fractions one expects. -/
example : (addAll someTemp [(twoFluids (1/4) 3 0, 1), (twoFluids (3/4) 3 0, 3)] (resetState (twoFluids 0 0 0))).map
    (fun q => (q.flowRate, (q.parts 0).massFraction, (q.parts 1).massFraction)) = some (4, 5 / 8, 3 / 8) := by
  decide +kernel

example : ∀ a ∈ [(twoFluids (1/4) 3 0, (1 : ℚ)), (twoFluids (3/4) 3 0, 3)], Addable (twoFluids 0 0 0) a := by
  have key : ∀ x f : ℚ, (x = 1/4 ∨ x = 3/4) → (f = 1 ∨ f = 3) → Addable (twoFluids 0 0 0) (twoFluids x 3 0, f) := by
    intro x f hx hf
    have two : ∀ i, i < 2 → i = 0 ∨ i = 1 := by intro i hi; omega
    refine ⟨⟨rfl, fun i _ => ⟨rfl, rfl⟩⟩, ⟨?_, ?_, ?_, ?_⟩, ?_, ?_, ?_⟩
    · intro i hi
      rcases two i hi with rfl | rfl <;> rcases hx with rfl | rfl <;> (simp only [twoFluids]; norm_num)
    · show |∑ i ∈ range 2, _ - 1| ≤ fltEps
      rw [Finset.sum_range_succ, Finset.sum_range_one]
      simp only [twoFluids, fltEps]; rcases hx with rfl | rfl <;> norm_num
    · show |∑ i ∈ range 2, _ - 1| ≤ fltEps
      rw [Finset.sum_range_succ, Finset.sum_range_one]
      simp only [twoFluids, fltEps]; rcases hx with rfl | rfl <;> norm_num
    · refine ⟨by simp only [twoFluids]; rcases hx with rfl | rfl <;> norm_num, ?_⟩
      intro i hi
      rcases two i hi with rfl | rfl <;> rcases hx with rfl | rfl <;> (simp only [twoFluids]; norm_num)
    · intro i hi; rfl
    · rcases hf with rfl | rfl <;> (simp only [dblEps]; norm_num)
    · intro i hi
      right
      rcases two i hi with rfl | rfl <;> rcases hx with rfl | rfl <;> rcases hf with rfl | rfl <;>
        (simp only [twoFluids, minFlowRate, dblEps]; norm_num [abs_of_pos])
  intro a ha
  simp only [List.mem_cons, List.not_mem_nil, or_false] at ha
  rcases ha with rfl | rfl
  · exact key _ _ (Or.inl rfl) (Or.inl rfl)
  · exact key _ _ (Or.inr rfl) (Or.inr rfl)

/-- **C31** (limit). A flow below `DBL_EPSILON` is taken for "not given": all of the source's own flow is added. -/
theorem c31_tiny_flow :
    flowsAfter (addState someTemp (twoFluids 1 10 0) (dblEps / 2) (twoFluids 0 1 0)) = some (11, 10 / 11, 1 / 11) := by
  decide +kernel

/-- **C31** (limit). A constituent of which less than `DBL_EPSILON²` is to be added gets its share of the source's
own flow instead: here as much as the whole mixture, and the mass fractions add up to two. -/
theorem c31_tiny_part :
    flowsAfter (addState someTemp (twoFluids (dblEps / 2) 2 0) dblEps (resetState (twoFluids 0 0 0))) =
      some (dblEps, 1, 1 - dblEps / 2) := by decide +kernel

/-- **C31** (limit). Updating the mixture from the masses of its constituents leaves the flow rates of the
constituents as they were; adding this mixture as a source then adds a constituent it does not hold. -/
theorem c31_stale_flow :
    flowsAfter (addState someTemp (MixOp.run (twoFluids 1 2 1) (.parts (fun i => if i = 0 then 0 else 1))) 1
      (resetState (twoFluids 0 0 0))) = some (1, 2, 1) := by decide +kernel

/-- **C31** (exception). Initialising with fractions whose sum differs from one by more than `FLT_EPSILON`
normalises the mass fractions but not the molecular weight, which is too small by the sum. -/
theorem c31_init_weight {n : Nat} {types : Nat → Nat} {mw : Nat → K} {d : Input K} {p : Poly K}
    (hw : ∀ i, i < n → 2 * dblEps ≤ mw i ∧ 2 * dblEps * mw i ≤ 1) (hf : ∀ i, i < n → 0 ≤ d.fractions i)
    (hs : fltEps < |∑ i ∈ range n, d.fractions i - 1|) (h : initialise n types mw d = some p) :
    p.mweight * ∑ i ∈ range n, (p.parts i).massFraction / mw i = 1 / ∑ i ∈ range n, d.fractions i ∧
    p.mweight * ∑ i ∈ range n, (p.parts i).massFraction / mw i ≠ 1 := by
  unfold initialise at h
  split_ifs at h with hbad
  cases hn : normalise n d.fractions with
  | none => rw [hn] at h; cases h
  | some g =>
    rw [hn] at h
    obtain ⟨htol, hcase, -⟩ := normalise_spec hn
    rcases hcase with ⟨hle, -⟩ | ⟨-, hg, -⟩
    · exact absurd hs (not_lt.2 hle)
    have hpos : ∀ i, i < n → 0 < mw i := fun i hi => lt_of_lt_of_le (mul_pos two_pos dblEps_pos) (hw i hi).1
    have hS : (1 / 2 : K) ≤ ∑ j ∈ range n, d.fractions j := by
      have := (abs_le.1 htol).1
      have := tol_half (K := K)
      linarith
    have hS0 : (0 : K) < ∑ j ∈ range n, d.fractions j := by linarith
    have hge := perMass_ge hf (fun i hi => ⟨hpos i hi, (hw i hi).2⟩)
    have hdb := dblEps_pos (K := K)
    have hge2 : dblEps ≤ ∑ i ∈ range n, d.fractions i / mw i := by
      have := mul_le_mul_of_nonneg_left hS (mul_pos two_pos hdb).le
      linarith
    have hm : innerLimit dblEps (total n (fun i => d.fractions i / mw i)) = ∑ i ∈ range n, d.fractions i / mw i := by
      rw [total_eq_sum]; exact innerLimit_of_ge hge2
    have hm0 : 0 < ∑ i ∈ range n, d.fractions i / mw i := lt_of_lt_of_le hdb hge2
    simp only [hm] at h
    cases h
    have key : ∑ i ∈ range n, g i / mw i = (∑ i ∈ range n, d.fractions i / mw i) / ∑ j ∈ range n, d.fractions j := by
      rw [hg, Finset.sum_div]
      refine Finset.sum_congr rfl (fun i hi => ?_)
      rw [div_right_comm]
    have e : 1 / (∑ i ∈ range n, d.fractions i / mw i) * ∑ i ∈ range n, g i / mw i =
        1 / ∑ i ∈ range n, d.fractions i := by
      rw [key]
      generalize ∑ i ∈ range n, d.fractions i / mw i = a at *
      generalize ∑ j ∈ range n, d.fractions j = b at *
      field_simp
    refine ⟨e, ?_⟩
    show 1 / (∑ i ∈ range n, d.fractions i / mw i) * ∑ i ∈ range n, g i / mw i ≠ 1
    rw [e]
    intro c
    rw [div_eq_one_iff_eq hS0.ne'] at c
    rw [← c, sub_self, abs_zero] at hs
    exact absurd hs (not_lt.2 fltEps_pos.le)

example : (initialise 2 id (fun i => if i = 0 then 2 else 4)
    { temperature := 300, pressure := 100, flowRate := 1, mass := 1,
      fractions := fun i => if i = 0 then (1/2 : ℚ) else 1/2 + 1/20000 }).isSome := by
  decide +kernel

/-- **C31** (exception). When the combined flow is too small `addState` throws, but only after it has changed the
flow rate of the mixture, so mixture and constituents no longer agree. -/
theorem c31_throw_changes_flow {temp : (Nat → K) → K → K} {src p : Poly K} {flow : K} (h1 : sameTypes p src = true)
    (h2 : |p.flowRate + sourceFlow src flow| < dblEps) :
    addState temp src flow p = .thrown { p with flowRate := p.flowRate + sourceFlow src flow } := by
  unfold addState
  simp [h1, h2]

end Gunns.Props
