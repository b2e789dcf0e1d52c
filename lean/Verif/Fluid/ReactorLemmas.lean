import Verif.Fluid.ReactorSpec
import Verif.Fluid.PolyFluidLemmas
import Mathlib.Tactic.LinearCombination

/-!
# Lemmas about chemical reactors
-/

set_option linter.unusedSectionVars false

namespace Gunns.Fluid

open Finset

variable {K : Type _} [Field K] [LinearOrder K] [IsStrictOrderedRing K]

theorem addMass_mass (k j : Nat) (m : K) (c : Nat → Compound K) :
    (addMass k m c j).mass = (c j).mass + if j = k then m else 0 := by
  unfold addMass
  by_cases h : j = k
  · rw [if_pos h, if_pos h]
  · rw [if_neg h, if_neg h, add_zero]

theorem addMass_total (k j : Nat) (m : K) (c : Nat → Compound K) :
    (addMass k m c j).total = (c j).total + if j = k then m else 0 := by
  unfold addMass
  by_cases h : j = k
  · rw [if_pos h, if_pos h]
  · rw [if_neg h, if_neg h, add_zero]

theorem addMass_weight (k j : Nat) (m : K) (c : Nat → Compound K) :
    (addMass k m c j).weight = (c j).weight ∧ (addMass k m c j).index = (c j).index := by
  unfold addMass
  by_cases h : j = k
  · rw [if_pos h]; exact ⟨rfl, rfl⟩
  · rw [if_neg h]; exact ⟨rfl, rfl⟩

theorem zeroTiny_mass (k j : Nat) (c : Nat → Compound K) :
    (zeroTiny k c j).mass = (c j).mass ∧ (zeroTiny k c j).weight = (c j).weight ∧
      (zeroTiny k c j).index = (c j).index := by
  unfold zeroTiny
  by_cases h : j = k ∧ (c j).total < dblEps
  · rw [if_pos h]; exact ⟨rfl, rfl, rfl⟩
  · rw [if_neg h]; exact ⟨rfl, rfl, rfl⟩

theorem zeroTiny_total (k j : Nat) (c : Nat → Compound K) :
    (zeroTiny k c j).total = if j = k ∧ (c j).total < dblEps then 0 else (c j).total := by
  unfold zeroTiny
  by_cases h : j = k ∧ (c j).total < dblEps
  · rw [if_pos h, if_pos h]
  · rw [if_neg h, if_neg h]

/-- How often the reaction runs, in moles. -/
def extent (eff : Reaction K → (Nat → Compound K) → K) (r : Reaction K) (c : Nat → Compound K) : K :=
  reagentMass eff r c / (r.nReagent * (c r.reagent).weight)

section once

variable {eff : Reaction K → (Nat → Compound K) → K} {n : Nat} {r : Reaction K} {c : Nat → Compound K}

theorem reagent_bounds (hr : ProperReaction n r) (hc : ProperCompounds n c) (he : 0 ≤ eff r c) :
    0 ≤ extent eff r c ∧
    extent eff r c * (r.nReactant * (c r.reactant).weight) ≤
      (c r.reactant).total * min (9999 / 10000) (eff r c) ∧
    extent eff r c * (r.nReagent * (c r.reagent).weight) ≤ (c r.reagent).total * (9999 / 10000) ∧
    (extent eff r c * (r.nReactant * (c r.reactant).weight) =
        (c r.reactant).total * min (9999 / 10000) (eff r c) ∨
      extent eff r c * (r.nReagent * (c r.reagent).weight) = (c r.reagent).total * (9999 / 10000)) := by
  have hwr : 0 < r.nReactant * (c r.reactant).weight := mul_pos hr.nReactant (hc.weight _ hr.reactant)
  have hwg : 0 < r.nReagent * (c r.reagent).weight := mul_pos hr.nReagent (hc.weight _ hr.reagent)
  have h1 : extent eff r c * (r.nReagent * (c r.reagent).weight) = reagentMass eff r c := by
    unfold extent; exact div_mul_cancel₀ _ hwg.ne'
  have hmax : 0 ≤ (c r.reactant).total * min (9999 / 10000) (eff r c) :=
    mul_nonneg (hc.total _ hr.reactant) (le_min (by norm_num) he)
  have hm0 : 0 ≤ reagentMass eff r c := by
    unfold reagentMass
    refine le_min (mul_nonneg (hc.total _ hr.reagent) (by norm_num)) ?_
    exact div_nonneg (mul_nonneg hmax hwg.le) hwr.le
  have hx0 : 0 ≤ extent eff r c := div_nonneg hm0 hwg.le
  have hle1 : reagentMass eff r c ≤ (c r.reagent).total * (9999 / 10000) := min_le_left _ _
  have hle2 : reagentMass eff r c ≤ (c r.reactant).total * min (9999 / 10000) (eff r c) *
      (r.nReagent * (c r.reagent).weight) / (r.nReactant * (c r.reactant).weight) := min_le_right _ _
  have hkey : ∀ t : K, (t = (c r.reactant).total * min (9999 / 10000) (eff r c) *
      (r.nReagent * (c r.reagent).weight) / (r.nReactant * (c r.reactant).weight)) →
      t / (r.nReagent * (c r.reagent).weight) * (r.nReactant * (c r.reactant).weight) =
        (c r.reactant).total * min (9999 / 10000) (eff r c) := by
    intro t ht
    rw [ht]
    have a := hwr.ne'
    have b := hwg.ne'
    rw [div_div, mul_comm (r.nReactant * (c r.reactant).weight), ← div_div, mul_div_cancel_right₀ _ b,
      div_mul_cancel₀ _ a]
  refine ⟨hx0, ?_, by rw [h1]; exact hle1, ?_⟩
  · have := hkey _ rfl
    rw [← this]
    exact mul_le_mul_of_nonneg_right (div_le_div_of_nonneg_right hle2 hwg.le) hwr.le
  · rcases min_choice ((c r.reagent).total * (9999 / 10000)) ((c r.reactant).total * min (9999 / 10000) (eff r c) *
      (r.nReagent * (c r.reagent).weight) / (r.nReactant * (c r.reactant).weight)) with h | h
    · right; rw [h1]; exact h
    · left; exact hkey _ h

theorem reactOnce_same (j : Nat) :
    (reactOnce eff c r j).weight = (c j).weight ∧ (reactOnce eff c r j).index = (c j).index := by
  unfold reactOnce
  cases r.product2 with
  | none =>
    exact ⟨by rw [(zeroTiny_mass _ _ _).2.1, (zeroTiny_mass _ _ _).2.1, (addMass_weight _ _ _ _).1,
      (addMass_weight _ _ _ _).1, (addMass_weight _ _ _ _).1],
      by rw [(zeroTiny_mass _ _ _).2.2, (zeroTiny_mass _ _ _).2.2, (addMass_weight _ _ _ _).2,
      (addMass_weight _ _ _ _).2, (addMass_weight _ _ _ _).2]⟩
  | some p =>
    exact ⟨by rw [(addMass_weight _ _ _ _).1, (zeroTiny_mass _ _ _).2.1, (zeroTiny_mass _ _ _).2.1,
      (addMass_weight _ _ _ _).1, (addMass_weight _ _ _ _).1, (addMass_weight _ _ _ _).1],
      by rw [(addMass_weight _ _ _ _).2, (zeroTiny_mass _ _ _).2.2, (zeroTiny_mass _ _ _).2.2,
      (addMass_weight _ _ _ _).2, (addMass_weight _ _ _ _).2, (addMass_weight _ _ _ _).2]⟩

/-- The masses of one mole ratio of a compound, as the code computes them. -/
theorem mass_of_extent (m q : K) (k : Nat) :
    m * (q * (c k).weight) / (r.nReagent * (c r.reagent).weight) =
      m / (r.nReagent * (c r.reagent).weight) * (q * (c k).weight) := by
  rw [mul_div_right_comm]

theorem reactOnce_mass (hr : ProperReaction n r) (hc : ProperCompounds n c) (j : Nat) :
    (reactOnce eff c r j).mass = (c j).mass + extent eff r c * (stoich r j * (c j).weight) := by
  have hwg : 0 < r.nReagent * (c r.reagent).weight := mul_pos hr.nReagent (hc.weight _ hr.reagent)
  have h1 : reagentMass eff r c = extent eff r c * (r.nReagent * (c r.reagent).weight) := by
    unfold extent; exact (div_mul_cancel₀ _ hwg.ne').symm
  have e1 : (if j = r.reactant then -(extent eff r c * (r.nReactant * (c r.reactant).weight)) else 0) =
      -(extent eff r c * ((if j = r.reactant then r.nReactant else 0) * (c j).weight)) := by
    by_cases h : j = r.reactant
    · rw [if_pos h, if_pos h, h]
    · rw [if_neg h, if_neg h]; ring
  have e2 : (if j = r.reagent then -(extent eff r c * (r.nReagent * (c r.reagent).weight)) else 0) =
      -(extent eff r c * ((if j = r.reagent then r.nReagent else 0) * (c j).weight)) := by
    by_cases h : j = r.reagent
    · rw [if_pos h, if_pos h, h]
    · rw [if_neg h, if_neg h]; ring
  have e3 : (if j = r.product1 then extent eff r c * (r.nProduct1 * (c r.product1).weight) else 0) =
      extent eff r c * ((if j = r.product1 then r.nProduct1 else 0) * (c j).weight) := by
    by_cases h : j = r.product1
    · rw [if_pos h, if_pos h, h]
    · rw [if_neg h, if_neg h]; ring
  unfold reactOnce stoich
  simp only [mass_of_extent]
  rw [show reagentMass eff r c / (r.nReagent * (c r.reagent).weight) = extent eff r c from rfl]
  cases hp : r.product2 with
  | none =>
    simp only [(zeroTiny_mass _ _ _).1, addMass_mass]
    rw [h1, e1, e2, e3]
    simp only [reduceCtorEq, if_false]
    ring
  | some p =>
    have e4 : (if j = p then extent eff r c * (r.nProduct2 * (c p).weight) else 0) =
        extent eff r c * ((if some p = some j then r.nProduct2 else 0) * (c j).weight) := by
      by_cases h : j = p
      · rw [if_pos h, if_pos (by rw [h]), h]
      · rw [if_neg h, if_neg (fun e => h (Option.some.inj e).symm)]; ring
    simp only [addMass_mass, (zeroTiny_mass _ _ _).1]
    rw [h1, e1, e2, e3, e4]
    ring

/-- The mass available changes as the mass produced, but for a remainder below `DBL_EPSILON`. -/
theorem reactOnce_total (hr : ProperReaction n r) (hc : ProperCompounds n c) (he : 0 ≤ eff r c) {j : Nat} (hj : j < n) :
    0 ≤ (reactOnce eff c r j).total ∧
    ∃ l, 0 ≤ l ∧ l ≤ dblEps ∧
      (reactOnce eff c r j).total = (c j).total + extent eff r c * (stoich r j * (c j).weight) - l := by
  obtain ⟨hx, hb1, hb2, -⟩ := reagent_bounds hr hc he
  have hwg : 0 < r.nReagent * (c r.reagent).weight := mul_pos hr.nReagent (hc.weight _ hr.reagent)
  have h1 : reagentMass eff r c = extent eff r c * (r.nReagent * (c r.reagent).weight) := by
    unfold extent; exact (div_mul_cancel₀ _ hwg.ne').symm
  have hb1' : extent eff r c * (r.nReactant * (c r.reactant).weight) ≤ (c r.reactant).total := by
    refine hb1.trans ?_
    have : min (9999 / 10000) (eff r c) ≤ 1 := (min_le_left _ _).trans (by norm_num)
    calc _ ≤ (c r.reactant).total * 1 := mul_le_mul_of_nonneg_left this (hc.total _ hr.reactant)
      _ = _ := mul_one _
  have hb2' : extent eff r c * (r.nReagent * (c r.reagent).weight) ≤ (c r.reagent).total := by
    refine hb2.trans ?_
    have := hc.total _ hr.reagent
    linarith
  have hp1 : 0 ≤ extent eff r c * (r.nProduct1 * (c r.product1).weight) :=
    mul_nonneg hx (mul_nonneg hr.nProduct1 (hc.weight _ hr.product1).le)
  -- what is there before the small remainders are dropped
  obtain ⟨c3, hc3⟩ : ∃ c3, c3 = addMass r.product1 (extent eff r c * (r.nProduct1 * (c r.product1).weight))
      (addMass r.reagent (-(extent eff r c * (r.nReagent * (c r.reagent).weight)))
        (addMass r.reactant (-(extent eff r c * (r.nReactant * (c r.reactant).weight))) c)) := ⟨_, rfl⟩
  have ht3 : (c3 j).total = (c j).total + (if j = r.reactant then -(extent eff r c * (r.nReactant * (c r.reactant).weight)) else 0)
      + (if j = r.reagent then -(extent eff r c * (r.nReagent * (c r.reagent).weight)) else 0)
      + (if j = r.product1 then extent eff r c * (r.nProduct1 * (c r.product1).weight) else 0) := by
    rw [hc3, addMass_total, addMass_total, addMass_total]
  have hpos3 : 0 ≤ (c3 j).total := by
    rw [ht3]
    have hp1' : 0 ≤ (if j = r.product1 then extent eff r c * (r.nProduct1 * (c r.product1).weight) else 0) := by
      by_cases h : j = r.product1
      · rw [if_pos h]; exact hp1
      · rw [if_neg h]
    have hcj := hc.total j hj
    by_cases h : j = r.reactant
    · have h' : j ≠ r.reagent := fun e => hr.distinct (h.symm.trans e)
      have e : (c j).total = (c r.reactant).total := by rw [h]
      rw [if_pos h, if_neg h']
      linarith
    · rw [if_neg h]
      by_cases h' : j = r.reagent
      · have e : (c j).total = (c r.reagent).total := by rw [h']
        rw [if_pos h']
        linarith
      · rw [if_neg h']
        linarith
  obtain ⟨c4, hc4⟩ : ∃ c4, c4 = zeroTiny r.reagent (zeroTiny r.reactant c3) := ⟨_, rfl⟩
  have h4 : 0 ≤ (c4 j).total ∧ ∃ l, 0 ≤ l ∧ l ≤ dblEps ∧ (c4 j).total = (c3 j).total - l := by
    have heps : (0 : K) < dblEps := dblEps_pos
    rw [hc4, zeroTiny_total, zeroTiny_total]
    by_cases a : j = r.reactant ∧ (c3 j).total < dblEps
    · rw [if_pos a]
      have : (if j = r.reagent ∧ (0 : K) < dblEps then (0 : K) else 0) = 0 := by split_ifs <;> rfl
      rw [this]
      exact ⟨le_rfl, (c3 j).total, hpos3, a.2.le, by ring⟩
    · rw [if_neg a]
      by_cases b : j = r.reagent ∧ (c3 j).total < dblEps
      · rw [if_pos b]
        exact ⟨le_rfl, (c3 j).total, hpos3, b.2.le, by ring⟩
      · rw [if_neg b]
        exact ⟨hpos3, 0, le_rfl, heps.le, by ring⟩
  obtain ⟨hpos4, l, hl0, hl1, hl⟩ := h4
  have e1 : (if j = r.reactant then -(extent eff r c * (r.nReactant * (c r.reactant).weight)) else 0) =
      -(extent eff r c * ((if j = r.reactant then r.nReactant else 0) * (c j).weight)) := by
    by_cases h : j = r.reactant
    · rw [if_pos h, if_pos h, h]
    · rw [if_neg h, if_neg h]; ring
  have e2 : (if j = r.reagent then -(extent eff r c * (r.nReagent * (c r.reagent).weight)) else 0) =
      -(extent eff r c * ((if j = r.reagent then r.nReagent else 0) * (c j).weight)) := by
    by_cases h : j = r.reagent
    · rw [if_pos h, if_pos h, h]
    · rw [if_neg h, if_neg h]; ring
  have e3 : (if j = r.product1 then extent eff r c * (r.nProduct1 * (c r.product1).weight) else 0) =
      extent eff r c * ((if j = r.product1 then r.nProduct1 else 0) * (c j).weight) := by
    by_cases h : j = r.product1
    · rw [if_pos h, if_pos h, h]
    · rw [if_neg h, if_neg h]; ring
  have hout : reactOnce eff c r = match r.product2 with
      | some p => addMass p (extent eff r c * (r.nProduct2 * (c p).weight)) c4
      | none => c4 := by
    unfold reactOnce
    simp only [mass_of_extent]
    rw [show reagentMass eff r c / (r.nReagent * (c r.reagent).weight) = extent eff r c from rfl, h1, hc4, hc3]
    cases r.product2 <;> rfl
  rw [hout]
  unfold stoich
  cases hp : r.product2 with
  | none =>
    simp only [reduceCtorEq, if_false]
    refine ⟨hpos4, l, hl0, hl1, ?_⟩
    rw [hl, ht3, e1, e2, e3]; ring
  | some p =>
    have hp2 : 0 ≤ extent eff r c * (r.nProduct2 * (c p).weight) :=
      mul_nonneg hx (mul_nonneg hr.nProduct2 (hc.weight _ (hr.product2 p hp)).le)
    have e4 : (if j = p then extent eff r c * (r.nProduct2 * (c p).weight) else 0) =
        extent eff r c * ((if some p = some j then r.nProduct2 else 0) * (c j).weight) := by
      by_cases h : j = p
      · rw [if_pos h, if_pos (by rw [h]), h]
      · rw [if_neg h, if_neg (fun e => h (Option.some.inj e).symm)]; ring
    simp only [addMass_total]
    refine ⟨?_, l, hl0, hl1, ?_⟩
    · refine add_nonneg hpos4 ?_
      by_cases h : j = p
      · rw [if_pos h]; exact hp2
      · rw [if_neg h]
    · rw [hl, ht3, e1, e2, e3, e4]; ring

theorem reactOnce_proper (hr : ProperReaction n r) (hc : ProperCompounds n c) (he : 0 ≤ eff r c) :
    ProperCompounds n (reactOnce eff c r) := by
  constructor
  · intro k hk
    rw [(reactOnce_same k).1]
    exact hc.weight k hk
  · intro k hk
    exact (reactOnce_total hr hc he hk).1

end once

end Gunns.Fluid
