import Verif.Solver.Model
import Mathlib.Tactic.Ring

/-!
# What the parts of a step leave alone
-/

set_option linter.unusedSectionVars false

namespace Gunns

variable {σ K : Type _} [Field K] [LinearOrder K]

/-- The state an outcome carries. -/
def Outcome.val {α : Type _} : Outcome α → α
  | .ok a => a
  | .numeric a => a
  | .nan a => a
  | .ub a => a

/-- The state an outcome carries. -/
def BuildOutcome.val : BuildOutcome σ K → State σ K
  | .ok s => s
  | .limit s => s
  | .numeric s => s
  | .nan s => s
  | .ub s => s

/-- Fields no part of a minor step (but its counters) writes. -/
structure Frame (s s' : State σ K) : Prop where
  lastMinor : s'.lastMinor = s.lastMinor
  minorCount : s'.minorCount = s.minorCount
  maxMinor : s'.maxMinor = s.maxMinor
  majorCount : s'.majorCount = s.majorCount
  majorPot : s'.majorPot = s.majorPot
  failCount : s'.failCount = s.failCount
  maxDecomp : s'.maxDecomp = s.maxDecomp

theorem Frame.refl (s : State σ K) : Frame s s := ⟨rfl, rfl, rfl, rfl, rfl, rfl, rfl⟩

theorem Frame.trans {s t u : State σ K} (h : Frame s t) (h' : Frame t u) : Frame s u :=
  ⟨h'.1.trans h.1, h'.2.trans h.2, h'.3.trans h.3, h'.4.trans h.4, h'.5.trans h.5, h'.6.trans h.6,
    h'.7.trans h.7⟩

/-- The decomposition counters are the same. -/
structure SameDecomp (s s' : State σ K) : Prop where
  last : s'.lastDecomp = s.lastDecomp
  count : s'.decompCount = s.decompCount
  ghost : s'.decomps = s.decomps

theorem stepLinks_eq (M : Methods σ K) (c : Cfg K) (s : State σ K) :
    ∃ e cl r, stepLinks M c s = { s with env := e, calls := cl, rebuild := r } := by
  unfold stepLinks
  refine loop_inv (P := fun _ (t : State σ K) => ∃ e cl r, t =
    ({ s with env := e, calls := cl, rebuild := r } : State σ K)) _ ?_ ?_
  · exact ⟨s.env, s.calls, s.rebuild, rfl⟩
  · rintro k - t ⟨e, cl, r, rfl⟩
    dsimp only
    split
    · exact ⟨_, _, _, rfl⟩
    · split
      · exact ⟨_, _, _, rfl⟩
      · exact ⟨_, _, _, rfl⟩

theorem resetLinks_eq (M : Methods σ K) (c : Cfg K) (a b : Nat) (s : State σ K) :
    ∃ e cl r, resetLinks M c a b s = { s with env := e, calls := cl, resetFailCount := r } := by
  unfold resetLinks
  refine loop_inv (P := fun _ (t : State σ K) => ∃ e cl r, t =
    ({ s with env := e, calls := cl, resetFailCount := r } : State σ K)) _ ?_ ?_
  · exact ⟨s.env, s.calls, s.resetFailCount, rfl⟩
  · rintro k - t ⟨e, cl, r, rfl⟩
    dsimp only
    split
    · exact ⟨_, _, _, rfl⟩
    · exact ⟨_, _, _, rfl⟩

theorem linksInputs_eq (M : Methods σ K) (c : Cfg K) (s : State σ K) :
    ∃ e, linksInputs M c s =
      { s with env := e, calls := s.calls ++ (List.range c.numLinks).map Call.inputs } := by
  unfold linksInputs
  refine loop_inv (P := fun k (t : State σ K) => ∃ e, t =
    ({ s with env := e, calls := s.calls ++ (List.range k).map Call.inputs } : State σ K)) _ ?_ ?_
  · exact ⟨s.env, by simp⟩
  · rintro k - t ⟨e, rfl⟩
    exact ⟨_, by simp [List.range_succ]; rfl⟩

theorem linksOutputs_eq (M : Methods σ K) (c : Cfg K) (s : State σ K) :
    ∃ e, linksOutputs M c s =
      { s with env := e, calls := s.calls ++
        (List.range c.numLinks).map (fun d => Call.outputs (c.numLinks - 1 - d)) } := by
  unfold linksOutputs
  refine loop_inv (P := fun k (t : State σ K) => ∃ e, t =
    ({ s with env := e, calls := s.calls ++
      (List.range k).map (fun d => Call.outputs (c.numLinks - 1 - d)) } : State σ K)) _ ?_ ?_
  · exact ⟨s.env, by simp⟩
  · rintro k - t ⟨e, rfl⟩
    exact ⟨_, by simp [List.range_succ]; rfl⟩

theorem overridePotential_eq (c : Cfg K) (s : State σ K) :
    ∃ p m, overridePotential c s = { s with pot := p, minorPot := m } := by
  unfold overridePotential
  split
  · exact ⟨_, _, rfl⟩
  · exact ⟨_, _, rfl⟩
  · exact ⟨_, _, rfl⟩

theorem outputPotential_eq (c : Cfg K) (s : State σ K) :
    ∃ e, outputPotential c s = { s with env := e } := by
  unfold outputPotential
  split
  · exact ⟨_, rfl⟩
  · exact ⟨s.env, rfl⟩

theorem trySor_eq (c : Cfg K) (w : Nat → K) (s : State σ K) :
    ∃ p l f, trySor c w s = { s with pot := p, sorLast := l, sorFailCount := f } := by
  unfold trySor
  dsimp only
  split
  · split
    · exact ⟨_, _, _, rfl⟩
    · exact ⟨_, _, _, rfl⟩
  · exact ⟨_, _, _, rfl⟩

theorem buildSystem_eq (c : Cfg K) (s : State σ K) :
    ∃ m r, (buildSystem c s).2 = { s with mat := m, rebuild := r } := by
  unfold buildSystem
  split
  · exact ⟨_, _, rfl⟩
  · exact ⟨s.mat, s.rebuild, rfl⟩

theorem factor_eq (c : Cfg K) (s : State σ K) : ∃ m, (factor c s).val = { s with mat := m, decomps := s.decomps + 1 } := by
  unfold factor
  dsimp only
  split
  · split
    · exact ⟨_, rfl⟩
    · exact ⟨_, rfl⟩
    · exact ⟨s.mat, rfl⟩
  · split
    · exact ⟨_, rfl⟩
    · exact ⟨_, rfl⟩
    · exact ⟨s.mat, rfl⟩

theorem factor_not_limit (c : Cfg K) (s t : State σ K) : factor c s ≠ .limit t := by
  unfold factor
  dsimp only
  split <;> split <;> simp

theorem solveSystem_eq (c : Cfg K) (w : Nat → K) (s : State σ K) :
    ∃ p l, (solveSystem c w s).val = { s with pot := p, solves := l } := by
  unfold solveSystem
  split
  · split
    · exact ⟨_, _, rfl⟩
    · exact ⟨_, s.solves, rfl⟩
    · exact ⟨s.pot, s.solves, rfl⟩
  · exact ⟨s.pot, s.solves, rfl⟩

theorem solveSystem_not_limit (c : Cfg K) (w : Nat → K) (s t : State σ K) :
    solveSystem c w s ≠ .limit t := by
  unfold solveSystem
  split
  · split <;> simp
  · simp

/-- Everything a call of `buildAndSolveSystem` may change, with the decomposition counters. -/
theorem buildAndSolve_eq (c : Cfg K) (s : State σ K) :
    ∃ d p m r sl sf ss, (buildAndSolve c s).val =
      { s with pot := p, mat := m, rebuild := r, sorLast := sl, sorFailCount := sf, solves := ss
               lastDecomp := s.lastDecomp + d, decompCount := s.decompCount + d
               decomps := s.decomps + d } ∧
      d ≤ 1 ∧ (d = 1 → s.lastDecomp < c.decompositionLimit) := by
  obtain ⟨m, r, hb⟩ := buildSystem_eq c s
  unfold buildAndSolve
  dsimp only
  rw [hb]
  obtain ⟨p, l, f, ht⟩ := trySor_eq c (buildSource c.size (Env.links c s.env)) { s with mat := m, rebuild := r }
  rw [ht]
  split
  · split
    · split
      · rename_i hlim
        obtain ⟨m', hf⟩ := factor_eq c { s with
          mat := m, rebuild := r, pot := p, sorLast := l
          sorFailCount := f, lastDecomp := s.lastDecomp + 1, decompCount := s.decompCount + 1 }
        split
        · rename_i t heq
          rw [heq] at hf
          obtain ⟨p', ss, hs⟩ := solveSystem_eq c (buildSource c.size (Env.links c s.env)) t
          simp only [BuildOutcome.val] at hf
          refine ⟨1, p', m', r, l, f, ss, ?_, le_rfl, fun _ => hlim⟩
          rw [hs, hf]
        · refine ⟨1, p, m', r, l, f, s.solves, ?_, le_rfl, fun _ => hlim⟩
          rw [hf]
      · exact ⟨0, p, m, r, l, f, s.solves, rfl, by omega, by omega⟩
    · obtain ⟨p', ss, hs⟩ := solveSystem_eq c (buildSource c.size (Env.links c s.env))
        { s with mat := m, rebuild := r, pot := p, sorLast := l, sorFailCount := f }
      exact ⟨0, p', m, r, l, f, ss, by rw [hs]; rfl, by omega, by omega⟩
  · exact ⟨0, p, m, r, l, f, s.solves, rfl, by omega, by omega⟩

/-- State carried by the outcome of a minor step body. -/
def BodyOutcome.val : BodyOutcome σ K → State σ K
  | .next it => it.s
  | .brk it => it.s
  | .numeric s => s
  | .nan s => s
  | .ub s => s

theorem outputPotential_frame (c : Cfg K) (s : State σ K) :
    Frame s (outputPotential c s) ∧ SameDecomp s (outputPotential c s) := by
  obtain ⟨e, h⟩ := outputPotential_eq c s
  rw [h]
  exact ⟨⟨rfl, rfl, rfl, rfl, rfl, rfl, rfl⟩, rfl, rfl, rfl⟩

theorem resetLinks_frame (M : Methods σ K) (c : Cfg K) (a b : Nat) (s : State σ K) :
    Frame s (resetLinks M c a b s) ∧ SameDecomp s (resetLinks M c a b s) := by
  obtain ⟨e, cl, r, h⟩ := resetLinks_eq M c a b s
  rw [h]
  exact ⟨⟨rfl, rfl, rfl, rfl, rfl, rfl, rfl⟩, rfl, rfl, rfl⟩

theorem acceptance_frame (M : Methods σ K) (c : Cfg K) (it : Iter σ K) :
    Frame it.s (acceptance M c it).val ∧ SameDecomp it.s (acceptance M c it).val := by
  unfold acceptance
  split
  · dsimp only
    split
    · simp only [BodyOutcome.val]
      obtain ⟨f1, g1⟩ := outputPotential_frame c
        { afterPoll it (countConverged c it) (confirmSolution M c (countConverged c it) it.s.lastMinor it.s.env) with
          pot := copyVec c.size (afterPoll it (countConverged c it) (confirmSolution M c (countConverged c it) it.s.lastMinor it.s.env)).minorPot
            (afterPoll it (countConverged c it) (confirmSolution M c (countConverged c it) it.s.lastMinor it.s.env)).pot }
      have f0 := fun b => resetLinks_frame M c (countConverged c it) b (outputPotential c
        { afterPoll it (countConverged c it) (confirmSolution M c (countConverged c it) it.s.lastMinor it.s.env) with
          pot := copyVec c.size (afterPoll it (countConverged c it) (confirmSolution M c (countConverged c it) it.s.lastMinor it.s.env)).minorPot
            (afterPoll it (countConverged c it) (confirmSolution M c (countConverged c it) it.s.lastMinor it.s.env)).pot })
      exact ⟨Frame.trans (t := outputPotential c _) ⟨f1.1, f1.2, f1.3, f1.4, f1.5, f1.6, f1.7⟩ (f0 _).1,
        (f0 _).2.1.trans g1.1, (f0 _).2.2.trans g1.2, (f0 _).2.3.trans g1.3⟩
    · split
      · split
        · exact ⟨⟨rfl, rfl, rfl, rfl, rfl, rfl, rfl⟩, rfl, rfl, rfl⟩
        · exact ⟨⟨rfl, rfl, rfl, rfl, rfl, rfl, rfl⟩, rfl, rfl, rfl⟩
      · exact ⟨⟨rfl, rfl, rfl, rfl, rfl, rfl, rfl⟩, rfl, rfl, rfl⟩
  · exact ⟨Frame.refl _, rfl, rfl, rfl⟩

/-- Counters of one minor step. -/
structure BodyCounts (c : Cfg K) (s s' : State σ K) : Prop where
  lastMinor : s'.lastMinor = s.lastMinor
  minorCount : s'.minorCount = s.minorCount + 1
  maxMinor : s'.maxMinor = max s.maxMinor s.lastMinor
  majorCount : s'.majorCount = s.majorCount
  majorPot : s'.majorPot = s.majorPot
  failCount : s'.failCount = s.failCount
  maxDecomp : s'.maxDecomp = s.maxDecomp
  decomp : ∃ d, d ≤ 1 ∧ s'.lastDecomp = s.lastDecomp + d ∧ s'.decompCount = s.decompCount + d ∧
    s'.decomps = s.decomps + d ∧ (d = 1 → s.lastDecomp < c.decompositionLimit)

theorem minorBody_counts (M : Methods σ K) (c : Cfg K) (it : Iter σ K) :
    BodyCounts c it.s (minorBody M c it).val := by
  have hmax : (if it.s.maxMinor < it.s.lastMinor then it.s.lastMinor else it.s.maxMinor) =
      max it.s.maxMinor it.s.lastMinor := by
    split <;> omega
  unfold minorBody
  dsimp only
  rw [hmax]
  split
  · obtain ⟨e, cl, r, h⟩ := stepLinks_eq M c { it.s with
      minorCount := it.s.minorCount + 1, maxMinor := max it.s.maxMinor it.s.lastMinor }
    rw [h]
    generalize hs1 : ({ it.s with
      env := e, rebuild := if c.worstCaseTiming = true then true else r
      minorCount := it.s.minorCount + 1, maxMinor := max it.s.maxMinor it.s.lastMinor, calls := cl } :
        State σ K) = s1
    obtain ⟨d, p, m, r', sl, sf, ss, hv, hd, hlim⟩ := buildAndSolve_eq c s1
    have e1 : s1.lastDecomp = it.s.lastDecomp := by rw [← hs1]
    have e2 : s1.decompCount = it.s.decompCount := by rw [← hs1]
    have hlim' : d = 1 → it.s.lastDecomp < c.decompositionLimit := by rw [← e1]; exact hlim
    split
    · rename_i t ht
      rw [ht] at hv
      simp only [BuildOutcome.val] at hv
      obtain ⟨p', m', ho⟩ := overridePotential_eq c t
      obtain ⟨e', ho'⟩ := outputPotential_eq c (overridePotential c t)
      obtain ⟨⟨f1, f2, f3, f4, f5, f6, f7⟩, d1, d2, d3⟩ :=
        acceptance_frame M c { it with s := outputPotential c (overridePotential c t) }
      simp only at f1 f2 f3 f4 f5 f6 f7 d1 d2 d3
      rw [ho', ho, hv, ← hs1] at f1 f2 f3 f4 f5 f6 f7 d1 d2 d3
      rw [ho', ho, hv, ← hs1]
      exact ⟨f1, f2, f3, f4, f5, f6, f7, d, hd, d1, d2, d3, hlim'⟩
    all_goals
      rename_i t ht
      rw [ht] at hv
      simp only [BuildOutcome.val] at hv
      simp only [BodyOutcome.val]
      rw [hv, ← hs1]
      exact ⟨rfl, rfl, rfl, rfl, rfl, rfl, rfl, d, hd, rfl, rfl, rfl, hlim'⟩
  · obtain ⟨⟨f1, f2, f3, f4, f5, f6, f7⟩, d1, d2, d3⟩ := acceptance_frame M c { it with s := { it.s with
      minorCount := it.s.minorCount + 1, maxMinor := max it.s.maxMinor it.s.lastMinor } }
    exact ⟨f1, f2, f3, f4, f5, f6, f7, 0, by omega, d1, d2, d3, by omega⟩

end Gunns
