import Verif.Solver.FreshLemmas
import Verif.Props.Solver
import Verif.Props.Islands

/-!
# Property C12: each solution uses the current link contributions
-/

set_option linter.unusedSectionVars false

namespace Gunns.Props

open Finset Gunns.Spec

variable {σ K : Type _} [Field K] [LinearOrder K] [IsStrictOrderedRing K]

/-- Configurations for which the matrix cannot get stale: direct solution in NORMAL mode with at least as many
decompositions allowed as minor steps (or a paused network). -/
structure Plain (N L : Nat) (c : Cfg K) : Prop where
  size : c.size = N
  links : c.numLinks = L
  run : c.paused = true ∨ (c.mode = .normal ∧ c.sor = none ∧ 1 ≤ c.minorStepLimit ∧
    1 ≤ c.decompositionLimit ∧ (c.linear = true ∨ c.minorStepLimit ≤ c.decompositionLimit))

/-- States reached from an initialised network (`rebuild` is set) by steps that end without exception, under
any plain configurations, and by changes made to the links from outside, which the links report. -/
inductive History (pend : Nat → σ → Prop) (M : Methods σ K) (N L : Nat) : State σ K → Prop
  | start (s : State σ K) (hr : s.rebuild = true) (hs : s.solves = []) : History pend M N L s
  | step (s s' : State σ K) (c : Cfg K) (h : History pend M N L s) (hc : Plain N L c)
      (hs : step M c s = .ok s') : History pend M N L s'
  | change (s : State σ K) (f : Env σ K → Env σ K) (h : History pend M N L s) (hf : Honest pend f) :
      History pend M N L { s with env := f s.env }

theorem history_inv {pend : Nat → σ → Prop} {M : Methods σ K} (hM : HonestLinks pend M) {N L : Nat}
    {s : State σ K} (h : History pend M N L s) :
    Pre pend N L s ∧ ∀ x ∈ s.solves, GoodSolve N L x := by
  induction h with
  | start s hr hs => exact ⟨.inl hr, by rw [hs]; simp⟩
  | change s f h hf ih =>
    refine ⟨?_, ih.2⟩
    rcases ih.1 with h | h
    · exact .inl h
    · exact .inr (hf.ready h)
  | step s s' c h hc hs ih =>
    rcases hc.run with hp | ⟨hm, hsor, hl1, hl2, hl3⟩
    · unfold step at hs
      rw [if_pos hp] at hs
      simp only [Outcome.ok.injEq] at hs
      exact hs ▸ ih
    · by_cases hp : c.paused = true
      · unfold step at hs
        rw [if_pos hp] at hs
        simp only [Outcome.ok.injEq] at hs
        exact hs ▸ ih
      · obtain ⟨it, hit, rfl⟩ := step_ok M c s s' (by simpa using hp) hs
        obtain ⟨e, he⟩ := stepStart_eq M c s
        have hE : effectiveLimit c ≤ c.decompositionLimit ∧ 1 ≤ effectiveLimit c := by
          unfold effectiveLimit
          split
          · exact ⟨hl2, le_rfl⟩
          · rename_i hnl
            rcases hl3 with h | h
            · exact absurd (.inl h) hnl
            · exact ⟨h, hl1⟩
        have hstart : Pre pend c.size c.numLinks (stepStart M c s) := by
          rw [hc.size, hc.links]
          have h1 : (stepStart M c s).rebuild = s.rebuild ∧ (stepStart M c s).mat = s.mat := by
            rw [he]; exact ⟨rfl, rfl⟩
          rcases ih.1 with h | h
          · left; rw [h1.1]; exact h
          · right
            rw [h1.2]
            unfold stepStart
            refine hM.resetFlows.ready ?_
            unfold linksInputs
            refine loop_inv (P := fun _ (t : State σ K) => Ready pend N L s.mat t.env) _ h ?_
            rintro k - t ht
            exact (hM.processInputs k).ready ht
        obtain ⟨g1, g2, g3⟩ := minorLoop_fresh hM c hm hsor (effectiveLimit c) _ _ hstart (by simp)
          (by intro h0; omega) (by dsimp only; omega) (by
            dsimp only
            rw [he]
            simp) hit
        rw [hc.size, hc.links] at g2 g3
        unfold finishStep
        dsimp only
        split
        · have hlo : ∀ t : State σ K, Ready pend N L t.mat t.env →
              Ready pend N L (linksOutputs M c t).mat (linksOutputs M c t).env := by
            intro t hT
            have : (linksOutputs M c t).mat = t.mat := by
              obtain ⟨e, h⟩ := linksOutputs_eq M c t
              rw [h]
            rw [this]
            unfold linksOutputs
            refine loop_inv (P := fun _ (u : State σ K) => Ready pend N L t.mat u.env) _ hT ?_
            rintro k - u hu
            exact (hM.processOutputs _).ready hu
          refine ⟨.inr (hlo _ (hM.transport.ready g2)), ?_⟩
          obtain ⟨e, h⟩ := linksOutputs_eq M c { it.s with
            maxDecomp := (if it.s.maxDecomp < it.s.lastDecomp then it.s.lastDecomp else it.s.maxDecomp)
            env := M.transport it.s.env
            calls := it.s.calls ++ [Call.transport] }
          rw [h]
          exact g3
        · have ms := (overridePotential_matSame c { it.s with
              maxDecomp := (if it.s.maxDecomp < it.s.lastDecomp then it.s.lastDecomp else it.s.maxDecomp)
              failCount := it.s.failCount + 1, pot := copyVec c.size it.s.majorPot it.s.pot }).trans
            (outputPotential_matSame c _)
          refine ⟨.inr ?_, ?_⟩
          · dsimp only
            rw [ms.mat]
            refine outputPotential_ready c _ ?_
            obtain ⟨p, m, ho⟩ := overridePotential_eq c { it.s with
              maxDecomp := (if it.s.maxDecomp < it.s.lastDecomp then it.s.lastDecomp else it.s.maxDecomp)
              failCount := it.s.failCount + 1, pot := copyVec c.size it.s.majorPot it.s.pot }
            rw [ho]
            exact g2
          · rw [ms.solves]
            exact g3

theorem cleanPot_eq (N : Nat) (x : Vect K) (n : Nat) :
    cleanPot N x n = if n < N ∧ |x n| < dblEps then 0 else x n := by
  unfold cleanPot
  have h := loop_inv (P := fun k (p : Vect K) => ∀ n, p n = if n < k ∧ |x n| < dblEps then 0 else x n)
    (f := fun i p => if |p i| < dblEps then Vect.set p i 0 else p) N (s := x) (by simp) (by
      rintro k - p hp n
      have hk : p k = x k := by rw [hp k, if_neg (by simp)]
      rw [hk]
      split
      · rename_i hs
        by_cases hn : n = k
        · subst hn; rw [Vect.set_same, if_pos ⟨by omega, hs⟩]
        · rw [Vect.set_ne _ _ _ _ hn, hp n]
          by_cases h1 : n < k
          · simp [h1, show n < k + 1 by omega]
          · rw [if_neg (fun h => h1 h.1), if_neg (fun h => by omega)]
      · rename_i hs
        rw [hp n]
        by_cases hn : n = k
        · subst hn; rw [if_neg (by simp), if_neg (fun h => hs h.2)]
        · by_cases h1 : n < k
          · simp [h1, show n < k + 1 by omega]
          · rw [if_neg (fun h => h1 h.1), if_neg (fun h => by omega)])
  exact h n

/-- **C12.** In every history of plain steps and reported link changes, each direct solution was computed
from the link contributions of that minor step: `x` solves the system whose matrix is the product of the
factors of the conditioned matrix assembled from those contributions (the matrix itself by C01) and whose
right-hand side is their summed sources, and the potentials are `x` with terms below DBL_EPSILON set to
zero.  The statement is restricted to conductive links, as C01 is. -/
theorem c12_solutions_are_current {pend : Nat → σ → Prop} {M : Methods σ K} (hM : HonestLinks pend M) {N L : Nat}
    {s : State σ K} (h : History pend M N L s) (e : Env σ K) (p : Nat → K) (hx : (e, p) ∈ s.solves)
    (hmap : ∀ l, l < L → (e.views l).Mapped N) (hcon : ∀ l, l < L → (e.views l).element.Conductive) :
    let links := (List.range L).map e.views
    let A := conditionAdmittance N (asMat N (buildAdmittance N links))
    ∃ B x, decompose A N = .ok B ∧
      (∀ i, i < N → mulVec N (ldlt N B) x i = (links.map (fun l => l.element.source i)).sum) ∧
      ∀ n, n < N → p n = if |x n| < dblEps then 0 else x n := by
  intro links A
  have hmap' : ∀ l ∈ links, l.Mapped N := by
    intro l hl
    obtain ⟨j, hj, rfl⟩ := List.mem_map.mp hl
    exact hmap j (List.mem_range.mp hj)
  have hcon' : ∀ l ∈ links, l.element.Conductive := by
    intro l hl
    obtain ⟨j, hj, rfl⟩ := List.mem_map.mp hl
    exact hcon j (List.mem_range.mp hj)
  obtain ⟨isl, B, x0, x, hB, hsol, hp⟩ := (history_inv hM h).2 (e, p) hx
  obtain ⟨B', hB', hpos⟩ := c09_network_decomposes N links hmap' hcon'
  have hB1 : decompose A N = .ok B := by
    cases isl with
    | false => exact hB
    | true =>
      have hB : decomposeIslands N (asMat N (buildAdmittance N links)) A = .ok B := hB
      have := c11_off_implies_solve N (asMat N (buildAdmittance N links)) B' (c08_conductive N links hmap' hcon').1 hB'
      rw [this] at hB
      simp only [IslandResult.ok.injEq] at hB
      rw [← hB]; exact hB'
  refine ⟨B, x, hB1, ?_, ?_⟩
  · intro i hi
    rw [← c08_source_entries N links i hi]
    have h00 : 0 < A 0 0 := by
      have e1 := (c03_decompose_decision A).1 B hB1
      rw [hB'] at hB1
      simp only [DecompResult.ok.injEq] at hB1
      rw [← e1.1, ← hB1]
      exact hpos 0 (by omega)
    refine c04_solve_correct ?_ hsol i hi
    intro i k hi hk
    obtain ⟨hf, -⟩ := ok_facts h00 hB1
    rw [hf.2.2.1 i k (by omega) hk, hf.2.1 i k (by omega) hk]
  · intro n hn
    change p = cleanPot N x at hp
    rw [hp, cleanPot_eq]
    by_cases h2 : |x n| < dblEps
    · rw [if_pos ⟨hn, h2⟩, if_pos h2]
    · rw [if_neg (fun h => h2 h.2), if_neg h2]

/-! ## Sample: a link that reports changes from a script -/

/-- Links that change nothing, except that link 0 reports a change when its script says so. -/
def updateMethods : Methods (List Bool) ℚ where
  processInputs _ e := e
  resetFlows e := e
  step _ e := e
  minorStep _ _ e := e
  needAdmittanceUpdate l e :=
    if l = 0 then (e.priv.headD false, { e with priv := e.priv.tail }) else (false, e)
  confirm _ _ _ e := (.confirm, e)
  resetMinor _ _ _ e := (true, e)
  transport e := e
  processOutputs _ e := e

/-- Link 0 has a change to report when its script starts with `true`. -/
def scriptPend (j : Nat) (script : List Bool) : Prop := j = 0 ∧ script.headD false = true

theorem updateMethods_honest : HonestLinks scriptPend updateMethods where
  processInputs _ _ _ := ⟨.inl (AdmSame.refl _), id⟩
  resetFlows _ _ := ⟨.inl (AdmSame.refl _), id⟩
  step _ _ _ := ⟨.inl (AdmSame.refl _), id⟩
  stepOwn _ _ _ _ := AdmSame.refl _
  minorStep _ _ _ _ := ⟨.inl (AdmSame.refl _), id⟩
  minorOwn _ _ _ _ _ := AdmSame.refl _
  updateSame l e j := by
    unfold updateMethods
    dsimp only
    split <;> exact AdmSame.refl _
  updateKeeps l e j hj hp := by
    unfold updateMethods
    dsimp only
    rw [if_neg (by have := hp.1; omega)]
    exact hp
  updateHears l e hp := by
    unfold updateMethods
    dsimp only
    rw [if_pos hp.1]
    exact hp.2
  confirm _ _ _ _ _ := ⟨.inl (AdmSame.refl _), id⟩
  resetMinor _ _ _ _ _ := ⟨.inl (AdmSame.refl _), id⟩
  transport _ _ := ⟨.inl (AdmSame.refl _), id⟩
  processOutputs _ _ _ := ⟨.inl (AdmSame.refl _), id⟩

/-- State of the sample network before its first step. -/
def updateState (script : List Bool) : State (List Bool) ℚ where
  env := { views := pairLinks, linkPot := fun _ _ => 0, ovr := fun _ _ => false, nodePot := fun _ => 0
           priv := script }
  pot _ := 0
  minorPot _ := 0
  majorPot _ := 0
  mat _ _ := 0
  rebuild := true
  majorCount := 0
  minorCount := 0
  maxMinor := 0
  lastMinor := 0
  decompCount := 0
  maxDecomp := 0
  lastDecomp := 0
  failCount := 0
  resetFailCount := 0
  sorLast := -1
  sorFailCount := 0
  hist := []
  calls := []
  solves := []
  decomps := 0

/-- The hypotheses are met by the sample network, whose links change in the second minor step: its history
holds two solutions after one step. -/
example : History scriptPend updateMethods 2 3
      (step updateMethods { pairCfg with minorStepLimit := 4 } (updateState [false, true])).val ∧
    (step updateMethods { pairCfg with minorStepLimit := 4 } (updateState [false, true])).val.solves.length = 2 ∧
    (step updateMethods { pairCfg with minorStepLimit := 4 } (updateState [false, true])).val.decompCount = 2 := by
  refine ⟨.step _ _ { pairCfg with minorStepLimit := 4 } (.start (updateState [false, true]) rfl rfl)
    ⟨rfl, rfl, .inr ⟨rfl, rfl, by decide, by decide, .inr (by decide)⟩⟩ (ok_val ?_), ?_, ?_⟩
  · decide +kernel
  · decide +kernel
  · decide +kernel

/-! ## The exceptions named in the property

In each case the network is the sample network: its potentials are 3 and 3, nothing changes, and the second
step accepts 9/2 and 3. -/

/-- Assembled sample system times the potentials of a state. -/
def residual (s : State (List Bool) ℚ) (i : Nat) : ℚ :=
  asMat 2 (buildAdmittance 2 ((List.range 3).map s.env.views)) i 0 * s.pot 0 +
  asMat 2 (buildAdmittance 2 ((List.range 3).map s.env.views)) i 1 * s.pot 1 -
  buildSource 2 ((List.range 3).map s.env.views) i

/-- **C12 (finding: decomposition limit).** After a step stopped by the decomposition limit, the next step
solves with the matrix that was built but not decomposed, and accepts the wrong potentials. -/
theorem c12_stale_after_decomposition_limit :
    ∃ (c : Cfg ℚ) (s0 s1 s2 : State (List Bool) ℚ), s0.rebuild = true ∧ c.mode = .normal ∧ c.sor = none ∧
      step updateMethods c s0 = .ok s1 ∧ step updateMethods c s1 = .ok s2 ∧
      s1.failCount = 1 ∧ s2.failCount = 1 ∧ residual s2 0 ≠ 0 := by
  refine ⟨{ pairCfg with decompositionLimit := 1 }, updateState [false, true], _, _, rfl, rfl, rfl,
    ok_val ?_, ok_val ?_, ?_, ?_, ?_⟩
  all_goals decide +kernel

/-- **C12 (finding: DUMMY mode).** A change heard of in DUMMY mode is built but not decomposed; the first
NORMAL step then accepts wrong potentials. -/
theorem c12_stale_after_dummy_mode :
    ∃ (c : Cfg ℚ) (s0 s1 s2 : State (List Bool) ℚ), s0.rebuild = true ∧ c.mode = .normal ∧ c.sor = none ∧
      step updateMethods { c with mode := .dummy } s0 = .ok s1 ∧ step updateMethods c s1 = .ok s2 ∧
      s2.failCount = 0 ∧ residual s2 0 ≠ 0 := by
  refine ⟨{ pairCfg with linear := true }, updateState [], _, _, rfl, rfl, rfl, ok_val ?_, ok_val ?_, ?_, ?_⟩
  all_goals decide +kernel

/-- **C12 (finding: SLAVE mode).** The same after SLAVE mode. -/
theorem c12_stale_after_slave_mode :
    ∃ (c : Cfg ℚ) (s0 s1 s2 : State (List Bool) ℚ), s0.rebuild = true ∧ c.mode = .normal ∧ c.sor = none ∧
      step updateMethods { c with mode := .slave } s0 = .ok s1 ∧ step updateMethods c s1 = .ok s2 ∧
      s2.failCount = 0 ∧ residual s2 0 ≠ 0 := by
  refine ⟨{ pairCfg with linear := true }, updateState [], _, _, rfl, rfl, rfl, ok_val ?_, ok_val ?_, ?_, ?_⟩
  all_goals decide +kernel

/-- **C12 (finding: SOR switched off).** A step solved by SOR leaves an undecomposed matrix; when SOR is
switched off and no link changes, the next step accepts wrong potentials. -/
theorem c12_stale_after_sor :
    ∃ (c : Cfg ℚ) (s0 s1 s2 : State (List Bool) ℚ), s0.rebuild = true ∧ c.mode = .normal ∧ c.sor = none ∧
      step updateMethods { c with sor := some (1, 20, 1 / 8) } s0 = .ok s1 ∧ step updateMethods c s1 = .ok s2 ∧
      s2.failCount = 0 ∧ residual s2 0 ≠ 0 := by
  refine ⟨{ pairCfg with linear := true }, updateState [], _, _, rfl, rfl, rfl, ok_val ?_, ok_val ?_, ?_, ?_⟩
  all_goals decide +kernel

end Gunns.Props
