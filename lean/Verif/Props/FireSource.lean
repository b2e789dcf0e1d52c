import Verif.Fluid.FireSource
import Verif.Fluid.CrewLemmas
import Mathlib.Tactic.Linarith
import Mathlib.Tactic.FieldSimp
import Mathlib.Tactic.Ring
import Mathlib.Tactic.NormNum

/-!
# C90: what a fire takes from a cabin and gives to it

While a fire burns, the cabin gets exactly the configured amounts per joule, constituent by constituent, less the blockage, and the
heat and the trace compounds without the blockage.  A fire that is out gives nothing, and stays out.
-/

namespace Gunns.Props

open Gunns Gunns.Fluid Gunns.Crew Gunns.Fire

set_option linter.unusedSectionVars false

variable {K : Type*} [Field K] [LinearOrder K] [IsStrictOrderedRing K]

/-- The part of the products a blockage leaves. -/
def c90open (q : Fire.Pass K) : K := 1 - q.block.getD 0

/-- The three constituents are different ones of the fluid. -/
def c90Placed (c : Fire.Config K) (n : Nat) : Prop :=
  c.iO2 < n ∧ c.iCO2 < n ∧ c.iH2O < n ∧ c.iO2 ≠ c.iCO2 ∧ c.iO2 ≠ c.iH2O ∧ c.iCO2 ≠ c.iH2O

/-- There is enough oxygen for the fire throughout the pass. -/
def c90Fed (c : Fire.Config K) (q : Fire.Pass K) : Prop := c.least ≤ q.ppStep ∧ c.least < q.ppMove

/-- Mass given to the cabin per joule. -/
def c90net (c : Fire.Config K) : K := c.co2 + c.h2o - c.o2

/-- Moles given to the cabin per joule. -/
def c90moles (c : Fire.Config K) (mw : Nat → K) : K := c.co2 / mw c.iCO2 + c.h2o / mw c.iH2O - c.o2 / mw c.iO2

private theorem choke_eq (q : Fire.Pass K) (l : Fire.Link K) :
    choke q l = { l with
      flow := l.flow * c90open q
      fO2 := l.fO2 * c90open q
      fCO2 := l.fCO2 * c90open q
      fH2O := l.fH2O * c90open q } := by
  unfold choke c90open
  cases q.block with
  | none => simp
  | some b => rfl

private theorem step_burning (c : Fire.Config K) (q : Fire.Pass K) (l : Fire.Link K) (hb : l.burning = true)
    (hq : c.least ≤ q.ppStep) :
    (Fire.step c q l).burning = true ∧ (Fire.step c q l).heat = l.heat ∧
      (Fire.step c q l).fO2 = -(c.o2 * l.heat * c90open q) ∧ (Fire.step c q l).fCO2 = c.co2 * l.heat * c90open q ∧
      (Fire.step c q l).fH2O = c.h2o * l.heat * c90open q ∧ (Fire.step c q l).flow = c90net c * l.heat * c90open q ∧
      (Fire.step c q l).fluid = l.fluid ∧ (∀ i, i < c.tc.n → (Fire.step c q l).rates i = c.trace i * l.heat) ∧
      (Fire.step c q l).source
        = (if dblEps < l.fluid.mweight then c90net c * l.heat * c90open q / l.fluid.mweight else 0) := by
  have h : smother c q l = l := by unfold smother; rw [if_neg (not_lt.2 hq)]
  unfold Fire.step
  rw [h]
  unfold calculateFlowRate
  rw [if_pos hb, choke_eq]
  unfold moles c90net
  refine ⟨hb, rfl, by simp only; ring, rfl, rfl, by simp only; ring, rfl, ?_, ?_⟩
  · intro i hi
    simp only
    rw [if_pos hi]
  · simp only
    split
    · congr 1; ring
    · rfl

private theorem bulk_sum (c : Fire.Config K) (q : Fire.Pass K) (l : Fire.Link K) (hb : l.burning = true)
    (hq : c.least ≤ q.ppStep) :
    ((Fire.bulk c (Fire.step c q l)).map Prod.snd).sum = c90net c * l.heat * c90open q := by
  obtain ⟨-, -, h1, h2, h3, -⟩ := step_burning c q l hb hq
  unfold Fire.bulk c90net
  simp only [List.map_cons, List.map_nil, List.sum_cons, List.sum_nil, h1, h2, h3]
  ring

private theorem bulk_moles (c : Fire.Config K) (q : Fire.Pass K) (l : Fire.Link K) (hb : l.burning = true)
    (hq : c.least ≤ q.ppStep) (mw : Nat → K) :
    ((Fire.bulk c (Fire.step c q l)).map (fun e => e.2 / mw e.1)).sum = c90moles c mw * l.heat * c90open q := by
  obtain ⟨-, -, h1, h2, h3, -⟩ := step_burning c q l hb hq
  unfold Fire.bulk c90moles
  simp only [List.map_cons, List.map_nil, List.sum_cons, List.sum_nil, h1, h2, h3]
  ring

private theorem pass_fed (c : Fire.Config K) (q : Fire.Pass K) (l : Fire.Link K) (hb : l.burning = true) (hq : c90Fed c q) :
    (Fire.pass c q l).1.burning = true ∧ (Fire.pass c q l).1.heat = l.heat ∧
      (Fire.pass c q l).1.fluid = burnt c q (computePower (Fire.step c q l)) ∧
      (Fire.pass c q l).2 =
        { flow := passed (c90net c * l.heat * c90open q), fluid := burnt c q (computePower (Fire.step c q l)),
          tc := setTCMasses c (burnt c q (computePower (Fire.step c q l))).mole (computePower (Fire.step c q l)),
          heat := l.heat } := by
  obtain ⟨h1, h2, -, -, -, h6, -⟩ := step_burning c q l hb hq.1
  have hc : (computePower (Fire.step c q l)).burning = true ∧ c.least < q.ppMove := ⟨h1, hq.2⟩
  have hp : (computePower (Fire.step c q l)).power = l.heat := by
    unfold computePower
    simp only [h1, if_true, h2]
  unfold Fire.pass transportFlows Fire.updateFluid
  rw [if_pos hc]
  refine ⟨h1, h2, rfl, ?_⟩
  simp only [hp]
  congr 2

private theorem fluid_facts (c : Fire.Config K) (q : Fire.Pass K) (l : Fire.Link K) (hp : c90Placed c l.fluid.n)
    (hb : l.burning = true) (hq : c90Fed c q) (hs : dblEps ≤ |c90net c * l.heat * c90open q|) :
    ((burnt c q (computePower (Fire.step c q l))).parts c.iO2).massFraction
        = -(c.o2 * l.heat * c90open q) / (c90net c * l.heat * c90open q) ∧
      ((burnt c q (computePower (Fire.step c q l))).parts c.iCO2).massFraction
        = c.co2 * l.heat * c90open q / (c90net c * l.heat * c90open q) ∧
      ((burnt c q (computePower (Fire.step c q l))).parts c.iH2O).massFraction
        = c.h2o * l.heat * c90open q / (c90net c * l.heat * c90open q) ∧
      (∀ i, i < l.fluid.n → i ≠ c.iO2 → i ≠ c.iCO2 → i ≠ c.iH2O →
        ((burnt c q (computePower (Fire.step c q l))).parts i).massFraction = 0) ∧
      (burnt c q (computePower (Fire.step c q l))).mole = innerLimit dblEps (c90moles c l.fluid.mw * l.heat * c90open q) ∧
      (burnt c q (computePower (Fire.step c q l))).mweight
        = c90net c * l.heat * c90open q / innerLimit dblEps (c90moles c l.fluid.mw * l.heat * c90open q) ∧
      (burnt c q (computePower (Fire.step c q l))).n = l.fluid.n ∧
      (burnt c q (computePower (Fire.step c q l))).mw = l.fluid.mw := by
  obtain ⟨-, -, h1, h2, h3, -, h7, -⟩ := step_burning c q l hb hq.1
  obtain ⟨p1, p2, p3, p4, p5, p6⟩ := hp
  have hbk : Fire.bulk c (computePower (Fire.step c q l)) = Fire.bulk c (Fire.step c q l) := rfl
  have hfl : (computePower (Fire.step c q l)).fluid = l.fluid := h7
  have hsum := bulk_sum c q l hb hq.1
  have hmol := bulk_moles c q l hb hq.1 l.fluid.mw
  have hk : ∀ e ∈ Fire.bulk c (Fire.step c q l), e.1 < l.fluid.n := by
    intro e he
    simp only [Fire.bulk, List.mem_cons, List.not_mem_nil, or_false] at he
    rcases he with h | h | h <;> rw [h] <;> assumption
  have hd : ((Fire.bulk c (Fire.step c q l)).map Prod.fst).Nodup := by
    simp only [Fire.bulk, List.map_cons, List.map_nil, List.nodup_cons, List.mem_cons, List.not_mem_nil, or_false,
      not_or, not_false_eq_true, List.nodup_nil, and_true]
    exact ⟨⟨p4, p5⟩, p6⟩
  obtain ⟨f1, f2, f3, f4, f5, f6⟩ := filled _ l.fluid hk hd (by rw [hsum]; exact hs)
  rw [hsum] at f1 f4
  rw [hmol] at f3 f4
  have g1 := f1 (c.iO2, (Fire.step c q l).fO2) (by simp [Fire.bulk])
  have g2 := f1 (c.iCO2, (Fire.step c q l).fCO2) (by simp [Fire.bulk])
  have g3 := f1 (c.iH2O, (Fire.step c q l).fH2O) (by simp [Fire.bulk])
  simp only [h1] at g1
  simp only [h2] at g2
  simp only [h3] at g3
  unfold burnt
  rw [hbk, hfl]
  refine ⟨g1, g2, g3, ?_, f3, f4, f5, f6⟩
  intro i hi n1 n2 n3
  apply f2 i hi
  simp only [Fire.bulk, List.map_cons, List.map_nil, List.mem_cons, List.not_mem_nil, or_false, not_or]
  exact ⟨n1, n2, n3⟩

private theorem eps_le_of (x : K) (h : 100 * dblEps < |x|) : dblEps ≤ |x| := by
  have := dblEps_pos (K := K)
  linarith

/-- While the fire is fed, the cabin loses the configured oxygen and gets the configured carbon dioxide and water per joule, less the
blockage, nothing of the other constituents, and all of the heat; and the fire burns on. -/
theorem c90_burning (c : Fire.Config K) (q : Fire.Pass K) (l : Fire.Link K) (hp : c90Placed c l.fluid.n) (hb : l.burning = true)
    (hq : c90Fed c q) (hs : 100 * dblEps < |c90net c * l.heat * c90open q|) :
    (Fire.pass c q l).2.rate c.iO2 = -(c.o2 * l.heat * c90open q) ∧
      (Fire.pass c q l).2.rate c.iCO2 = c.co2 * l.heat * c90open q ∧
      (Fire.pass c q l).2.rate c.iH2O = c.h2o * l.heat * c90open q ∧
      (∀ i, i < l.fluid.n → i ≠ c.iO2 → i ≠ c.iCO2 → i ≠ c.iH2O → (Fire.pass c q l).2.rate i = 0) ∧
      (Fire.pass c q l).2.flow = c90net c * l.heat * c90open q ∧ (Fire.pass c q l).2.heat = l.heat ∧
      (Fire.pass c q l).2.fluid.temperature = q.temperature ∧ (Fire.pass c q l).1.burning = true := by
  obtain ⟨a1, -, -, a2⟩ := pass_fed c q l hb hq
  have he := eps_le_of _ hs
  obtain ⟨b1, b2, b3, b4, -⟩ := fluid_facts c q l hp hb hq he
  have hpass : passed (c90net c * l.heat * c90open q) = c90net c * l.heat * c90open q := by
    unfold passed; rw [if_pos hs]
  have hne : c90net c * l.heat * c90open q ≠ 0 := by
    intro h
    rw [h, abs_zero] at he
    exact absurd he (not_le.2 dblEps_pos)
  rw [a2]
  unfold Gift.rate
  simp only [hpass]
  refine ⟨?_, ?_, ?_, ?_, trivial, trivial, rfl, a1⟩
  · rw [b1, mul_div_cancel₀ _ hne]
  · rw [b2, mul_div_cancel₀ _ hne]
  · rw [b3, mul_div_cancel₀ _ hne]
  · intro i hi n1 n2 n3
    rw [b4 i hi n1 n2 n3, mul_zero]

/-- While the fire is fed and the moles of the cabin grow, each trace compound comes at its configured rate per joule: a blockage does
not reduce it. -/
theorem c90_trace (c : Fire.Config K) (q : Fire.Pass K) (l : Fire.Link K) (hp : c90Placed c l.fluid.n) (hb : l.burning = true)
    (hq : c90Fed c q) (hs : 100 * dblEps < |c90net c * l.heat * c90open q|)
    (hm : dblEps ≤ c90moles c l.fluid.mw * l.heat * c90open q)
    (hw : dblEps < c90net c * l.heat * c90open q / (c90moles c l.fluid.mw * l.heat * c90open q))
    (i : Nat) (hi : i < c.tc.n) (hmw : c.tc.mw i ≠ 0)
    (ht : dblEps ≤ c.trace i * l.heat / (c90moles c l.fluid.mw * l.heat * c90open q) / c.tc.mw i) :
    (Fire.pass c q l).2.traceRate c i = c.trace i * l.heat := by
  obtain ⟨-, -, -, a2⟩ := pass_fed c q l hb hq
  have he := eps_le_of _ hs
  obtain ⟨-, -, -, -, b5, b6, -⟩ := fluid_facts c q l hp hb hq he
  obtain ⟨-, -, -, -, -, -, -, s8, -⟩ := step_burning c q l hb hq.1
  have hpass : passed (c90net c * l.heat * c90open q) = c90net c * l.heat * c90open q := by
    unfold passed; rw [if_pos hs]
  have hne : c90net c * l.heat * c90open q ≠ 0 := by
    intro h
    rw [h, abs_zero] at he
    exact absurd he (not_le.2 dblEps_pos)
  have hpos : 0 < c90moles c l.fluid.mw * l.heat * c90open q := lt_of_lt_of_le dblEps_pos hm
  have hin : innerLimit dblEps (c90moles c l.fluid.mw * l.heat * c90open q) = c90moles c l.fluid.mw * l.heat * c90open q :=
    innerLimit_of_ge hm
  rw [hin] at b5 b6
  have hr : (computePower (Fire.step c q l)).rates i = c.trace i * l.heat := s8 i hi
  rw [a2]
  unfold Gift.traceRate
  simp only [b6, if_pos hw, hpass]
  have hf : (setTCMasses c (burnt c q (computePower (Fire.step c q l))).mole (computePower (Fire.step c q l))).frac i
      = c.trace i * l.heat / (c90moles c l.fluid.mw * l.heat * c90open q) / c.tc.mw i := by
    unfold setTCMasses Tc.updateMoleFractions
    rw [b5]
    simp only [if_pos hpos, if_pos hi, hr]
    rw [if_neg (not_lt.2 ht)]
  rw [hf]
  generalize c90net c * l.heat * c90open q = x at *
  generalize c90moles c l.fluid.mw * l.heat * c90open q = y at *
  have hy := hpos.ne'
  field_simp

/-- A pass in which there is no fire, or too little oxygen, gives the cabin nothing and leaves the fire out. -/
theorem c90_out (c : Fire.Config K) (q : Fire.Pass K) (l : Fire.Link K) (h : l.burning = false ∨ ¬ c90Fed c q) :
    (Fire.pass c q l).2.flow = 0 ∧ (Fire.pass c q l).2.heat = 0 ∧ (∀ i, (Fire.pass c q l).2.rate i = 0) ∧
      (∀ i, (Fire.pass c q l).2.traceRate c i = 0) ∧ (Fire.pass c q l).1.burning = false := by
  have hoff : ¬ ((computePower (Fire.step c q l)).burning = true ∧ c.least < q.ppMove) := by
    rintro ⟨h1, h2⟩
    have h3 : (smother c q l).burning = true := by
      have : (computePower (Fire.step c q l)).burning = (calculateFlowRate c (smother c q l)).burning := by
        unfold computePower Fire.step
        rw [choke_eq]
        rfl
      rw [this] at h1
      unfold calculateFlowRate at h1
      split at h1
      · assumption
      · exact h1
    unfold smother at h3
    by_cases hl : q.ppStep < c.least
    · rw [if_pos hl] at h3
      exact absurd h3 (by simp)
    · rw [if_neg hl] at h3
      rcases h with h | h
      · rw [h3] at h
        exact absurd h (by simp)
      · exact h ⟨not_lt.1 hl, h2⟩
  have hz : passed (0 : K) = 0 := by unfold passed; split <;> rfl
  unfold Fire.pass transportFlows Fire.updateFluid
  rw [if_neg hoff]
  refine ⟨hz, rfl, ?_, ?_, rfl⟩
  · intro i
    unfold Gift.rate
    simp only [zeroGenValues, hz, zero_mul]
  · intro i
    unfold Gift.traceRate
    simp only [zeroGenValues, hz, zero_div, zero_mul, ite_self]

/-- A fire that is out stays out and gives the cabin nothing, whatever oxygen, blockage or heat there is in any later passes. -/
theorem c90_stays_out (c : Fire.Config K) (qs : List (Fire.Pass K)) (l : Fire.Link K) (h : l.burning = false) :
    (Fire.run c qs l).1.burning = false ∧ (Fire.run c qs l).2.length = qs.length ∧
      ∀ g ∈ (Fire.run c qs l).2, g.flow = 0 ∧ g.heat = 0 ∧ (∀ i, g.rate i = 0) ∧ ∀ i, g.traceRate c i = 0 := by
  induction qs generalizing l with
  | nil => exact ⟨h, rfl, fun g hg => by cases hg⟩
  | cons q qs ih =>
    obtain ⟨h1, h2, h3, h4, h5⟩ := c90_out c q l (Or.inl h)
    obtain ⟨i1, i2, i3⟩ := ih (Fire.pass c q l).1 h5
    unfold Fire.run
    refine ⟨i1, by simp only [List.length_cons, i2], ?_⟩
    intro g hg
    rcases List.mem_cons.1 hg with hg | hg
    · rw [hg]; exact ⟨h1, h2, h3, h4⟩
    · exact i3 g hg

/-- In the second of two fed passes at the same heat and blockage the network is given the moles that come with the masses. -/
theorem c90_source (c : Fire.Config K) (q q' : Fire.Pass K) (l : Fire.Link K) (hp : c90Placed c l.fluid.n) (hb : l.burning = true)
    (hq : c90Fed c q) (hq' : c.least ≤ q'.ppStep) (ho : c90open q' = c90open q)
    (hs : dblEps ≤ |c90net c * l.heat * c90open q|) (hm : dblEps ≤ |c90moles c l.fluid.mw * l.heat * c90open q|)
    (hw : dblEps < c90net c * l.heat * c90open q / (c90moles c l.fluid.mw * l.heat * c90open q)) :
    (Fire.step c q' (Fire.pass c q l).1).source = c90moles c l.fluid.mw * l.heat * c90open q := by
  obtain ⟨a1, a2, a3, -⟩ := pass_fed c q l hb hq
  obtain ⟨-, -, -, -, -, b6, -⟩ := fluid_facts c q l hp hb hq hs
  obtain ⟨-, -, -, -, -, -, -, -, s9⟩ := step_burning c q' (Fire.pass c q l).1 a1 hq'
  rw [innerLimit_of_abs_ge hm] at b6
  rw [s9, a3, b6, if_pos hw, a2, ho]
  have hne : c90net c * l.heat * c90open q ≠ 0 := by
    intro h
    rw [h, abs_zero] at hs
    exact absurd hs (not_le.2 dblEps_pos)
  have hne' : c90moles c l.fluid.mw * l.heat * c90open q ≠ 0 := by
    intro h
    rw [h, abs_zero] at hm
    exact absurd hm (not_le.2 dblEps_pos)
  generalize c90net c * l.heat * c90open q = x at *
  generalize c90moles c l.fluid.mw * l.heat * c90open q = y at *
  field_simp

/-- A fire whose mass and moles have opposite signs gives the network no moles at all. -/
theorem c90_source_opposite (c : Fire.Config K) (q q' : Fire.Pass K) (l : Fire.Link K) (hp : c90Placed c l.fluid.n)
    (hb : l.burning = true) (hq : c90Fed c q) (hq' : c.least ≤ q'.ppStep)
    (hs : dblEps ≤ |c90net c * l.heat * c90open q|) (hm : dblEps ≤ |c90moles c l.fluid.mw * l.heat * c90open q|)
    (hw : c90net c * l.heat * c90open q / (c90moles c l.fluid.mw * l.heat * c90open q) ≤ 0) :
    (Fire.step c q' (Fire.pass c q l).1).source = 0 := by
  obtain ⟨a1, a2, a3, -⟩ := pass_fed c q l hb hq
  obtain ⟨-, -, -, -, -, b6, -⟩ := fluid_facts c q l hp hb hq hs
  obtain ⟨-, -, -, -, -, -, -, -, s9⟩ := step_burning c q' (Fire.pass c q l).1 a1 hq'
  rw [innerLimit_of_abs_ge hm] at b6
  rw [s9, a3, b6, if_neg (not_lt.2 (hw.trans dblEps_pos.le))]

/-- When the oxygen runs out, the network is still given the moles of the flow of the pass before, less the blockage once more, while
no mass is moved. -/
theorem c90_stale (c : Fire.Config K) (q : Fire.Pass K) (l : Fire.Link K) (hq : q.ppStep < c.least)
    (hw : dblEps < l.fluid.mweight) :
    (Fire.step c q l).source = l.flow * c90open q / l.fluid.mweight ∧ (Fire.pass c q l).2.flow = 0 := by
  refine ⟨?_, (c90_out c q l (Or.inr fun h => absurd h.1 (not_le.2 hq))).1⟩
  unfold Fire.step
  have h1 : smother c q l = { l with burning := false } := by unfold smother; rw [if_pos hq]
  rw [h1]
  unfold calculateFlowRate
  rw [if_neg (by simp), choke_eq]
  unfold moles
  simp only
  rw [if_pos hw]

/-- A pass without a fire after one without a fire gives the network no moles. -/
theorem c90_source_out (c : Fire.Config K) (q q' : Fire.Pass K) (l : Fire.Link K) (h : l.burning = false ∨ ¬ c90Fed c q) :
    (Fire.step c q' (Fire.pass c q l).1).source = 0 := by
  have h5 := (c90_out c q l h).2.2.2.2
  have hoff : ¬ ((computePower (Fire.step c q l)).burning = true ∧ c.least < q.ppMove) := by
    intro hc
    have : (Fire.pass c q l).1.burning = true := by
      unfold Fire.pass transportFlows Fire.updateFluid
      rw [if_pos hc]
      exact hc.1
    rw [h5] at this
    exact absurd this (by simp)
  have hf : (Fire.pass c q l).1.flow = 0 := by
    unfold Fire.pass transportFlows Fire.updateFluid
    rw [if_neg hoff]
    rfl
  have hs : (calculateFlowRate c (smother c q' (Fire.pass c q l).1)).flow = 0 := by
    have hb : (smother c q' (Fire.pass c q l).1).burning = false := by unfold smother; split <;> first | rfl | exact h5
    have hfl : (smother c q' (Fire.pass c q l).1).flow = 0 := by unfold smother; split <;> exact hf
    unfold calculateFlowRate
    rw [hb]
    simpa using hfl
  unfold Fire.step
  rw [choke_eq]
  unfold moles
  simp only [hs, zero_mul, zero_div, ite_self]

/-- What the check of the configuration accepts: it adds the oxygen where the flow subtracts it, so a fire whose products weigh what
it takes is accepted, and then it heats the cabin but exchanges nothing with it. -/
theorem c90_accepted (c : Fire.Config K) :
    (accepted c ↔ dblEps ≤ |c.co2 + c.h2o + c.o2|) ∧
      ∀ (q : Fire.Pass K) (l : Fire.Link K), c90net c = 0 → l.burning = true → c90Fed c q →
        (∀ i, (Fire.pass c q l).2.rate i = 0) ∧ (Fire.pass c q l).2.heat = l.heat := by
  refine ⟨by unfold accepted; exact not_lt, ?_⟩
  intro q l h0 hb hq
  obtain ⟨-, -, -, a2⟩ := pass_fed c q l hb hq
  have hz : passed (0 : K) = 0 := by unfold passed; split <;> rfl
  rw [a2]
  refine ⟨?_, rfl⟩
  intro i
  unfold Gift.rate
  simp only [h0, zero_mul, hz]

/-! ## Cases -/

private def sample : Fire.Config ℚ :=
  { o2 := 1 / 100, co2 := 1 / 100, h2o := 1 / 100, least := 10, trace := fun i => if i = 0 then 1 / 1000 else 1 / 500,
    tc := { n := 2, mw := fun _ => 28 }, iO2 := 0, iCO2 := 1, iH2O := 2 }

private def weights : Nat → ℚ := fun i => if i = 0 then 32 else if i = 1 then 44 else if i = 2 then 18 else 28

private def air : Poly ℚ :=
  { n := 4, types := fun i => i, mw := weights,
    parts := fun _ => { massFraction := 0, moleFraction := 0, temperature := 0, pressure := 0, flowRate := 0, mass := 0, mole := 0 },
    temperature := 295, pressure := 100, flowRate := 0, mass := 0, mole := 0, mweight := 29, enthalpy := 0 }

private def lit : Fire.Link ℚ :=
  { burning := true, heat := 100, fO2 := 0, fCO2 := 0, fH2O := 0, flow := 0, flux := 0, source := 0, power := 0,
    rates := fun _ => 0, fluid := air, tc := Tc.zero }

private def found : Fire.Pass ℚ := { block := some (1 / 2), ppStep := 21, ppMove := 21, temperature := 295 }

private def bare : Fire.Pass ℚ := { block := some (1 / 2), ppStep := 5, ppMove := 5, temperature := 295 }

example : c90Placed sample lit.fluid.n := by unfold c90Placed; decide +kernel

example : c90Fed sample found := by unfold c90Fed; decide +kernel

/-- Half blocked, half of the products come; all of the heat and of the trace compounds do. -/
example : (Fire.pass sample found lit).2.rate 0 = -1 / 2 ∧ (Fire.pass sample found lit).2.rate 1 = 1 / 2 ∧
    (Fire.pass sample found lit).2.rate 3 = 0 ∧ (Fire.pass sample found lit).2.heat = 100 ∧
    (Fire.pass sample found lit).2.traceRate sample 0 = 1 / 10 := by
  decide +kernel

example : 100 * dblEps < |c90net sample * lit.heat * c90open found| ∧
    dblEps ≤ c90moles sample lit.fluid.mw * lit.heat * c90open found ∧
    dblEps < c90net sample * lit.heat * c90open found / (c90moles sample lit.fluid.mw * lit.heat * c90open found) ∧
    dblEps ≤ sample.trace 1 * lit.heat / (c90moles sample lit.fluid.mw * lit.heat * c90open found) / sample.tc.mw 1 := by
  decide +kernel

/-- The oxygen runs out: moles without mass for one pass, and then nothing. -/
example : (Fire.step sample bare (Fire.pass sample found lit).1).source ≠ 0 ∧
    (Fire.pass sample bare (Fire.pass sample found lit).1).2.flow = 0 ∧
    (Fire.step sample found (Fire.pass sample bare (Fire.pass sample found lit).1).1).source = 0 := by
  decide +kernel

private def carbon : Fire.Config ℚ := { sample with h2o := 0, co2 := 12 / 1000 }

/-- A fire that makes mass and takes moles. -/
example : c90net carbon * lit.heat * c90open found / (c90moles carbon lit.fluid.mw * lit.heat * c90open found) ≤ 0 ∧
    dblEps ≤ |c90net carbon * lit.heat * c90open found| ∧
    dblEps ≤ |c90moles carbon lit.fluid.mw * lit.heat * c90open found| ∧
    (Fire.step carbon found (Fire.pass carbon found lit).1).source = 0 ∧ (Fire.pass carbon found lit).2.flow = 1 / 10 := by
  decide +kernel

private def even : Fire.Config ℚ := { sample with o2 := 1 / 50 }

example : accepted even ∧ c90net even = 0 ∧ (Fire.pass even found lit).2.heat = 100 := by
  decide +kernel

end Gunns.Props
