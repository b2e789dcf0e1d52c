import Verif.Props.ConverterTrips

/-!
# Properties C54 and C55: what a converter accepts, its ground and its reset

What passes the checks of initialisation; a link on ground; which potential each link gets; what the reset of a minor step undoes.
-/

set_option linter.unusedSectionVars false

namespace Gunns.Props

open Gunns Gunns.Elements Gunns.Conv

variable {K : Type _} [Field K] [LinearOrder K] [IsStrictOrderedRing K]

/-- C54: the checks of an output accept exactly the configurations that the claims on power are about, with no negative voltage or
setpoint. -/
theorem c54_accepted_output (o : Out K) :
    o.valid = true ↔ o.Sound ∧ 0 ≤ o.voltage ∧ 0 ≤ o.setpoint := by
  unfold Out.valid Out.Sound
  simp only [Bool.not_eq_true', Bool.or_eq_false_iff, decide_eq_false_iff_not, not_lt, gt_iff_lt]
  tauto

/-- C54: the checks of an input accept a table of efficiencies that are between `DBL_EPSILON` and one at all eleven tenths of the reference
power, a reference power that is not zero, and limits in order. -/
theorem c54_accepted_input (i : In K) :
    i.valid = true ↔ (i.ov.limit = 0 ∨ i.uv.limit ≤ i.ov.limit) ∧
      (∀ f, i.table = some f → dblEps ≤ i.refPower ∧ ∀ k : ℕ, k ≤ 10 → dblEps ≤ f (k / 10) ∧ f (k / 10) ≤ 1) := by
  have hk : ∀ k : ℕ, (1 : K) / 10 * (k : K) = k / 10 := fun k => by rw [one_div, div_eq_inv_mul]
  unfold In.valid
  rw [Bool.and_eq_true]
  apply and_congr
  · simp only [Bool.not_eq_true', Bool.and_eq_false_iff, decide_eq_false_iff_not, not_lt, gt_iff_lt, ne_eq, not_not]
    exact or_comm
  · cases ht : i.table with
    | none => simp
    | some f =>
      simp only [Bool.and_eq_true, List.all_eq_true, List.mem_range, decide_eq_true_eq, Bool.not_eq_true', decide_eq_false_iff_not,
        not_lt, Option.some.injEq, hk]
      constructor
      · rintro ⟨h1, h2⟩ g rfl
        exact ⟨h2, fun k hk => h1 k (by omega)⟩
      · intro h
        exact ⟨fun k hk => (h f rfl).2 k (by omega), (h f rfl).1⟩

/-- C54: each link gets the potential of its own node, and one on ground zero; a grounded output reports no current and takes no part in
the solution. -/
theorem c54_ground (sq : K → K) (p : Pair K) (a b : K) (n : ℕ) :
    (p.setPots a b).inp.pot = (if p.inp.ground then 0 else a) ∧ (p.setPots a b).out.pot = (if p.out.ground then 0 else b) ∧
      (p.out.ground = true → p.out.flows.flux = 0 ∧ (p.outMinor sq n).out.adm = 0 ∧ (p.outMinor sq n).out.source = 0) := by
  refine ⟨rfl, rfl, fun h => ⟨?_, ?_, ?_⟩⟩
  · unfold Out.flows; simp only [h, if_true]
  · unfold Pair.outMinor; simp only [h, if_true]
  · unfold Pair.outMinor; simp only [h, if_true]

/-- C55: the reset of an input after a converged solution takes off a negative potential, and that is all it does. -/
theorem c55_reset (p : Pair K) (n : ℕ) :
    (p.inReset n).inp.pot = (if n = 0 then p.inp.pot else max 0 p.inp.pot) ∧ (p.inReset n).out = p.out ∧
      { (p.inReset n).inp with pot := p.inp.pot } = p.inp := by
  unfold Pair.inReset
  by_cases h : n > 0 ∧ p.inp.pot < 0
  · rw [if_pos h]
    refine ⟨?_, rfl, rfl⟩
    rw [if_neg (by omega), max_eq_left h.2.le]
  · rw [if_neg h]
    refine ⟨?_, rfl, rfl⟩
    by_cases hn : n = 0
    · rw [if_pos hn]
    · rw [if_neg hn, max_eq_right]
      by_contra hc
      push Not at hc
      exact h ⟨by omega, hc⟩

/-- The output of the examples of C54 is accepted. -/
example : sampleOut.valid = true := by decide +kernel

/-- A reset at -3 V. -/
example : ((samplePair.setPots (-3) 9).inReset 1).inp.pot = 0 ∧ ((samplePair.setPots (-3) 9).inReset 0).inp.pot = -3 := by decide +kernel

end Gunns.Props
