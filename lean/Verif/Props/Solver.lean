import Verif.Solver.LoopLemmas
import Verif.Props.Assembly

/-!
# Properties C13 to C17: the step of the network solver

The statements hold for all link methods `M`.  The outcome of a step carries the state of the solver;
`.val` is that state whatever the outcome, exceptions included.
-/

set_option linter.unusedSectionVars false

namespace Gunns.Props

open Finset Gunns.Spec

variable {σ K : Type _} [Field K] [LinearOrder K]

/-! ## Sample network

Two nodes, joined to each other and to ground by unit conductances, with sources of 3 into both: the
potentials are 3 and 3.  The only non-linear link is link 0, which answers from a script. -/

/-- Link contributions of the sample network. -/
def pairLinks : Nat → LinkView ℚ := fun i =>
  ([mkLink 2 2 [0, 1] [1, -1, -1, 1] [0, 0],
    mkLink 2 2 [0, 2] [1, -1, -1, 1] [3, -3],
    mkLink 2 2 [1, 2] [1, -1, -1, 1] [3, -3]] : List (LinkView ℚ)).getD i (mkLink 2 0 [] [] [])

/-- Links that do nothing but answer from a script held in their state. -/
def scriptMethods : Methods (List SolRes) ℚ where
  processInputs _ e := e
  resetFlows e := e
  step _ e := e
  minorStep _ _ e := e
  needAdmittanceUpdate _ e := (false, e)
  confirm _ _ _ e := (e.priv.headD .confirm, { e with priv := e.priv.tail })
  resetMinor _ _ _ e := (true, e)
  transport e := e
  processOutputs _ e := e

/-- Configuration of the sample network. -/
def pairCfg : Cfg ℚ where
  size := 2
  numLinks := 3
  nonLinear l := decide (l = 0)
  linear := false
  mode := .normal
  paused := false
  islandSolve := false
  sor := none
  minorStepLimit := 10
  decompositionLimit := 5
  tolerance := 1
  worstCaseTiming := false
  debugDesiredStep := 0
  slavePot _ := 0

/-- State of the sample network before its first step. -/
def pairState (script : List SolRes) : State (List SolRes) ℚ where
  env := { views := pairLinks, linkPot := fun _ _ => 0, ovr := fun _ _ => false, nodePot := fun _ => 0
           priv := script }
  pot _ := 0
  minorPot _ := 0
  majorPot _ := 0
  mat _ _ := 0
  rebuild := true
  majorCount := 0
  minorCount := 0
  maxMinor := 0
  lastMinor := 0
  decompCount := 0
  maxDecomp := 0
  lastDecomp := 0
  failCount := 0
  resetFailCount := 0
  sorLast := -1
  sorFailCount := 0
  hist := []
  calls := []
  solves := []
  decomps := 0

/-- The step ended without exception. -/
def isOk {α : Type _} : Outcome α → Bool
  | .ok _ => true
  | _ => false

theorem ok_val {α : Type _} {o : Outcome α} (h : isOk o = true) : o = .ok o.val := by
  cases o with
  | ok a => rfl
  | numeric a => exact absurd h (by simp [isOk])
  | nan a => exact absurd h (by simp [isOk])
  | ub a => exact absurd h (by simp [isOk])

/-! ## C16 -/

/-- **C16.** Each non-linear link is polled exactly once, in link order; the combined answer is REJECT
exactly when some link rejects, DELAY exactly when none rejects, the network counts as converged and some link
delays, and CONFIRM otherwise. -/
theorem c16_combined_answer (M : Methods σ K) (c : Cfg K) (convergedStep minorStep : Nat) (e : Env σ K) :
    let p := confirmSolution M c convergedStep minorStep e
    let rejects := ∃ l, (l, SolRes.reject) ∈ p.answers
    let delays := ∃ l, (l, SolRes.delay) ∈ p.answers
    p.answers.map Prod.fst = (List.range c.numLinks).filter (fun l => c.nonLinear l) ∧
    p.calls = p.answers.map (fun a => Call.poll a.1 convergedStep minorStep) ∧
    (p.result = .reject ↔ rejects) ∧
    (p.result = .delay ↔ ¬ rejects ∧ 0 < convergedStep ∧ delays) ∧
    (p.result = .confirm ↔ ¬ rejects ∧ ¬ (0 < convergedStep ∧ delays)) := by
  intro p rejects delays
  obtain ⟨h1, h2, h3, h4⟩ := confirmSolution_spec M c convergedStep minorStep e
  refine ⟨h1, ?_, h3, h4, ?_⟩
  · rw [show p.answers.map (fun a => Call.poll a.1 convergedStep minorStep) =
      (p.answers.map Prod.fst).map (Call.poll · convergedStep minorStep) by rw [List.map_map]; rfl]
    rw [h1, h2]
  · change (p.result = .reject ↔ rejects) at h3
    change (p.result = .delay ↔ ¬ rejects ∧ 0 < convergedStep ∧ delays) at h4
    cases hr : p.result <;> simp [hr] at h3 h4 ⊢ <;> tauto

/-- **C16 (order).** The combined answer depends only on the answers, not on the order or the numbers of the
links that gave them. -/
theorem c16_order_independent (M M' : Methods σ K) (c c' : Cfg K) (convergedStep m m' : Nat) (e e' : Env σ K)
    (h : ∀ r, r ∈ (confirmSolution M c convergedStep m e).answers.map Prod.snd ↔
      r ∈ (confirmSolution M' c' convergedStep m' e').answers.map Prod.snd) :
    (confirmSolution M c convergedStep m e).result = (confirmSolution M' c' convergedStep m' e').result := by
  obtain ⟨-, -, h1, h2⟩ := confirmSolution_spec M c convergedStep m e
  obtain ⟨-, -, g1, g2⟩ := confirmSolution_spec M' c' convergedStep m' e'
  have key : ∀ r, (∃ l, (l, r) ∈ (confirmSolution M c convergedStep m e).answers) ↔
      ∃ l, (l, r) ∈ (confirmSolution M' c' convergedStep m' e').answers := by
    intro r
    have := h r
    simpa using this
  rw [key, key] at h2
  rw [key] at h1
  have e1 := h1.trans g1.symm
  have e2 := h2.trans g2.symm
  cases hr : (confirmSolution M c convergedStep m e).result <;>
    cases hr' : (confirmSolution M' c' convergedStep m' e').result <;> simp_all

/-- Two links that delay and reject, in both orders. -/
example : (confirmSolution scriptMethods { pairCfg with nonLinear := fun _ => true } 1 1
      (pairState [.delay, .reject, .confirm]).env).result = .reject ∧
    (confirmSolution scriptMethods { pairCfg with nonLinear := fun _ => true } 1 1
      (pairState [.reject, .confirm, .delay]).env).result = .reject ∧
    (confirmSolution scriptMethods { pairCfg with nonLinear := fun _ => true } 1 1
      (pairState [.confirm, .delay, .confirm]).env).result = .delay ∧
    (confirmSolution scriptMethods { pairCfg with nonLinear := fun _ => true } 0 1
      (pairState [.confirm, .delay, .confirm]).env).result = .confirm := by decide +kernel

/-! ## C13 -/

theorem finishStep_counts (M : Methods σ K) (c : Cfg K) (it : Iter σ K) :
    let t := finishStep M c it
    t.majorCount = it.s.majorCount ∧ t.minorCount = it.s.minorCount ∧ t.decompCount = it.s.decompCount ∧
    t.lastDecomp = it.s.lastDecomp ∧ t.decomps = it.s.decomps ∧ t.maxMinor = it.s.maxMinor ∧
    t.lastMinor = it.s.lastMinor ∧ t.maxDecomp = max it.s.maxDecomp it.s.lastDecomp ∧ t.hist = it.s.hist := by
  have hmax : (if it.s.maxDecomp < it.s.lastDecomp then it.s.lastDecomp else it.s.maxDecomp) =
      max it.s.maxDecomp it.s.lastDecomp := by
    split <;> omega
  intro t
  have ht : t = finishStep M c it := rfl
  unfold finishStep at ht
  dsimp only at ht
  rw [hmax] at ht
  cases hn : it.networkConverged with
  | true =>
    rw [hn, if_pos rfl] at ht
    obtain ⟨e, h⟩ := linksOutputs_eq M c { it.s with
      maxDecomp := max it.s.maxDecomp it.s.lastDecomp, env := M.transport it.s.env
      calls := it.s.calls ++ [Call.transport] }
    rw [h] at ht
    rw [ht]
    exact ⟨rfl, rfl, rfl, rfl, rfl, rfl, rfl, rfl, rfl⟩
  | false =>
    rw [hn, if_neg (by simp)] at ht
    obtain ⟨p, m, h⟩ := overridePotential_eq c { it.s with
      maxDecomp := max it.s.maxDecomp it.s.lastDecomp, failCount := it.s.failCount + 1
      pot := copyVec c.size it.s.majorPot it.s.pot }
    rw [h] at ht
    obtain ⟨e, h'⟩ := outputPotential_eq c { it.s with
      maxDecomp := max it.s.maxDecomp it.s.lastDecomp, failCount := it.s.failCount + 1
      pot := p, minorPot := m }
    rw [h'] at ht
    rw [ht]
    exact ⟨rfl, rfl, rfl, rfl, rfl, rfl, rfl, rfl, rfl⟩

/-- Counters of the minor steps of a step. -/
theorem iterate_counts (M : Methods σ K) (c : Cfg K) (s : State σ K) (hlim : 1 ≤ c.minorStepLimit) :
    let t := (iterateMinorSteps M c (stepStart M c s)).val.s
    ∃ n d, 1 ≤ n ∧ n ≤ c.minorStepLimit ∧ (c.linear = true ∨ c.mode ≠ .normal → n = 1) ∧ d ≤ n ∧
      d ≤ c.decompositionLimit ∧ t.decomps = d ∧ t.majorCount = s.majorCount + 1 ∧
      t.minorCount = s.minorCount + n ∧ t.decompCount = s.decompCount + d ∧ t.lastDecomp = d ∧
      t.maxMinor = max s.maxMinor n ∧
      (t.lastMinor = n ∨ (t.lastMinor = n + 1 ∧
        n = if c.linear = true ∨ c.mode ≠ .normal then 1 else c.minorStepLimit)) ∧
      t.maxDecomp = s.maxDecomp ∧ t.majorPot = s.majorPot ∧ t.failCount = s.failCount := by
  intro t
  obtain ⟨e, hs⟩ := stepStart_eq M c s
  have hc := minorLoop_counts M c (effectiveLimit c)
    { s := { stepStart M c s with lastDecomp := 0, lastMinor := 1 }
      networkConverged := decide (c.linear = true ∨ c.mode ≠ .normal)
      convergedStep := 0, result := .confirm }
  obtain ⟨g1, g2, g3, g4, n, d, i1, i2, i3, i4, i5, i6, i7, i8, i9, i10⟩ := hc
  have ht : t = (minorLoop M c (effectiveLimit c)
    { s := { stepStart M c s with lastDecomp := 0, lastMinor := 1 }
      networkConverged := decide (c.linear = true ∨ c.mode ≠ .normal)
      convergedStep := 0, result := .confirm }).val.s := rfl
  rw [← ht] at g1 g2 g3 g4 i4 i5 i6 i7 i9 i10
  rw [hs] at g1 g2 g3 g4 i4 i6 i7 i9
  dsimp only at g1 g2 g3 g4 i4 i5 i6 i7 i8 i9 i10
  have hle : effectiveLimit c ≤ c.minorStepLimit ∧ 1 ≤ effectiveLimit c ∧
      (c.linear = true ∨ c.mode ≠ .normal → effectiveLimit c = 1) := by
    unfold effectiveLimit
    split
    · exact ⟨hlim, le_rfl, fun _ => rfl⟩
    · rename_i h; exact ⟨le_rfl, hlim, fun h' => absurd h' h⟩
  have hn := i2 (by omega)
  refine ⟨n, d, by omega, by omega, fun h => by have := hle.2.2 h; omega, i3, ?_, ?_, g1, i4, i6, ?_, ?_, ?_,
    g4, g2, g3⟩
  · rcases Nat.eq_zero_or_pos d with h0 | h0
    · omega
    · have := i8 h0; omega
  · rw [i7]; omega
  · rw [i5]; omega
  · rw [i9 hn]; congr 1; omega
  · rcases i10 with ⟨_, h⟩ | ⟨h1, h⟩
    · left; omega
    · right
      refine ⟨by omega, ?_⟩
      rw [h1]; rfl

/-- **C13.** Whatever the links do and however the step ends, a step consists of at least one and at most
`minorStepLimit` minor steps (`n`), exactly one for a linear network or outside NORMAL mode, and of `d`
decompositions, at most one in each minor step and at most `decompositionLimit`; and the counters grow by these
numbers. -/
theorem c13_step_counters (M : Methods σ K) (c : Cfg K) (s : State σ K) (hp : c.paused = false)
    (hlim : 1 ≤ c.minorStepLimit) :
    let t := (step M c s).val
    ∃ n d, 1 ≤ n ∧ n ≤ c.minorStepLimit ∧ (c.linear = true ∨ c.mode ≠ .normal → n = 1) ∧ d ≤ n ∧
      d ≤ c.decompositionLimit ∧ t.decomps = d ∧
      t.majorCount = s.majorCount + 1 ∧ t.minorCount = s.minorCount + n ∧
      t.decompCount = s.decompCount + d ∧ t.lastDecomp = d ∧ t.maxMinor = max s.maxMinor n ∧
      (isOk (step M c s) = true → t.maxDecomp = max s.maxDecomp d) := by
  intro t
  obtain ⟨n, d, h1, h2, h3, h4, h5, h6, h7, h8, h9, h10, h11, h12, h13, -⟩ := iterate_counts M c s hlim
  have ht : t = (step M c s).val := rfl
  rw [step_eq M c s hp] at ht ⊢
  generalize iterateMinorSteps M c (stepStart M c s) = o at *
  cases o with
  | ok it =>
    obtain ⟨f1, f2, f3, f4, f5, f6, f7, f8, f9⟩ := finishStep_counts M c it
    simp only [Outcome.val] at ht h6 h7 h8 h9 h10 h11 h12 h13
    rw [ht]
    exact ⟨n, d, h1, h2, h3, h4, h5, f5.trans h6, f1.trans h7, f2.trans h8, f3.trans h9, f4.trans h10,
      f6.trans h11, fun _ => by rw [f8, h10, h13]⟩
  | numeric it =>
    rw [ht]
    exact ⟨n, d, h1, h2, h3, h4, h5, h6, h7, h8, h9, h10, h11, fun h => by simp [isOk] at h⟩
  | nan it =>
    rw [ht]
    exact ⟨n, d, h1, h2, h3, h4, h5, h6, h7, h8, h9, h10, h11, fun h => by simp [isOk] at h⟩
  | ub it =>
    rw [ht]
    exact ⟨n, d, h1, h2, h3, h4, h5, h6, h7, h8, h9, h10, h11, fun h => by simp [isOk] at h⟩

/-- **C13 (the counted minor steps are real).** In a step that ends normally each link is stepped exactly once,
and in a non-linear network in NORMAL mode the links were polled in each counted minor step, but for a
last one stopped by the decomposition limit. -/
theorem c13_minor_steps_done (M : Methods σ K) (c : Cfg K) (s s' : State σ K) (hp : c.paused = false)
    (hlim : 1 ≤ c.minorStepLimit) (h : step M c s = .ok s') :
    s'.calls.filter Call.isStep = (List.range c.numLinks).map Call.step ∧
    (c.linear = false → c.mode = .normal →
      s'.minorCount = s.minorCount + s'.hist.length ∨
      (s'.minorCount = s.minorCount + s'.hist.length + 1 ∧ c.decompositionLimit ≤ s'.lastDecomp)) := by
  obtain ⟨it, hit, rfl⟩ := step_ok M c s s' hp h
  obtain ⟨e, hs⟩ := stepStart_eq M c s
  obtain ⟨f1, f2, f3, f4, f5, f6, f7, f8, f9⟩ := finishStep_counts M c it
  constructor
  · have hb : ((List.range c.numLinks).map Call.inputs).filter Call.isStep = [] :=
      List.filter_eq_nil_iff.mpr fun x h => by
        obtain ⟨l, -, rfl⟩ := List.mem_map.mp h; simp [Call.isStep]
    have hf := minorLoop_calls M c ((List.range c.numLinks).map Call.inputs) (effectiveLimit c) _ _
      (by
        refine ⟨?_, .inl ⟨rfl, by simp, ?_⟩⟩
        · rw [hs]
        · rw [hs]) (by simp) (by
        intro h0
        unfold effectiveLimit at h0
        split at h0 <;> omega) hit
    have h2 := hf.2
    rw [hb, List.nil_append] at h2
    rw [← h2]
    have ht : (finishStep M c it).calls.filter Call.isStep = it.s.calls.filter Call.isStep := by
      unfold finishStep
      dsimp only
      split
      · obtain ⟨e, h⟩ := linksOutputs_eq M c { it.s with
          maxDecomp := (if it.s.maxDecomp < it.s.lastDecomp then it.s.lastDecomp else it.s.maxDecomp)
          env := M.transport it.s.env
          calls := it.s.calls ++ [Call.transport] }
        rw [h]
        dsimp only
        rw [List.filter_append, List.filter_append]
        have e1 : ([Call.transport] : List Call).filter Call.isStep = [] := rfl
        have e2 : ((List.range c.numLinks).map (fun d => Call.outputs (c.numLinks - 1 - d))).filter Call.isStep = [] :=
          List.filter_eq_nil_iff.mpr fun x h => by
            obtain ⟨l, -, rfl⟩ := List.mem_map.mp h; simp [Call.isStep]
        rw [e1, e2, List.append_nil, List.append_nil]
      · rw [(outputPotential_fields ..).2.2.2.1]
        obtain ⟨p, m, h⟩ := overridePotential_eq c { it.s with
          maxDecomp := (if it.s.maxDecomp < it.s.lastDecomp then it.s.lastDecomp else it.s.maxDecomp)
          failCount := it.s.failCount + 1
          pot := copyVec c.size it.s.majorPot it.s.pot }
        rw [h]
    exact ht
  · intro hl hm
    have := minorLoop_histLen M c hl hm (effectiveLimit c) _ _ hit
    rw [hs] at this
    simp only [List.length_nil] at this
    rcases this with h1 | ⟨h1, -, h3⟩
    · left; rw [f2, f9]; omega
    · right; rw [f2, f9, f4]; exact ⟨by omega, h3⟩

/-- **C13 (finding).** The reported number of the last minor step is not the number of minor steps done:
every step of a linear network or outside NORMAL mode reports 2 after having done one minor step. -/
theorem c13_last_minor_step_overruns (M : Methods σ K) (c : Cfg K) (s s' : State σ K) (hp : c.paused = false)
    (hc : c.linear = true ∨ c.mode ≠ .normal) (hd : 1 ≤ c.decompositionLimit) (h : step M c s = .ok s') :
    s'.lastMinor = 2 ∧ s'.minorCount = s.minorCount + 1 := by
  obtain ⟨it, hit, rfl⟩ := step_ok M c s s' hp h
  obtain ⟨e, hs⟩ := stepStart_eq M c s
  obtain ⟨f1, f2, f3, f4, f5, f6, f7, f8, f9⟩ := finishStep_counts M c it
  rw [f2, f7]
  have hE : effectiveLimit c = 1 := by unfold effectiveLimit; rw [if_pos hc]
  unfold iterateMinorSteps at hit
  rw [hE] at hit
  generalize hI : ({ s := { stepStart M c s with lastDecomp := 0, lastMinor := 1 }
                     networkConverged := decide (c.linear = true ∨ c.mode ≠ .normal)
                     convergedStep := 0, result := .confirm } : Iter σ K) = I at hit
  have hbc := minorBody_counts M c I
  have hb := minorBody_cases M c I
  have e1 : I.s.lastMinor = 1 := by rw [← hI]
  have e2 : I.s.minorCount = s.minorCount := by rw [← hI]; dsimp only; rw [hs]
  have e3 : I.s.lastDecomp = 0 := by rw [← hI]
  unfold minorLoop at hit
  generalize hB : minorBody M c I = B at hb hbc hit
  cases hb with
  | numeric s' => simp at hit
  | nan s' => simp at hit
  | ub s' => simp at hit
  | limit s' hd' hm hh hcl hlim => omega
  | accept it1 hs1 hl =>
    rw [acceptance_linear M c it1 (by rintro ⟨h1, h2⟩; rcases hc with hc | hc <;> simp_all)] at hit hbc
    simp only [minorLoop, Outcome.ok.injEq] at hit
    subst hit
    have h1 := hbc.lastMinor
    have h2 := hbc.minorCount
    simp only [BodyOutcome.val] at h1 h2
    dsimp only
    omega

/-- Three minor steps (not converged, converged and delayed, confirmed), two decompositions and two link
steps. -/
example : isOk (step scriptMethods pairCfg (pairState [.confirm, .delay, .confirm])) = true ∧
    (step scriptMethods pairCfg (pairState [.confirm, .delay, .confirm])).val.minorCount = 3 ∧
    (step scriptMethods pairCfg (pairState [.confirm, .delay, .confirm])).val.lastMinor = 3 ∧
    (step scriptMethods pairCfg (pairState [.confirm, .delay, .confirm])).val.decompCount = 1 := by
  decide +kernel

example : isOk (step scriptMethods { pairCfg with linear := true } (pairState [])) = true ∧
    (step scriptMethods { pairCfg with linear := true } (pairState [])).val.lastMinor = 2 := by
  decide +kernel

/-! ## C14 -/

/-- **C14.** A step that ends without exception either is accepted: the failure count stays, the flows are
transported once and then the outputs of each link are processed once, in reverse order; or it is not: the
failure count grows by one, nothing is transported or output, and unless a link overrides a potential,
solver and nodes are back at the potentials saved by the previous step. -/
theorem c14_accept_or_roll_back (M : Methods σ K) (c : Cfg K) (s s' : State σ K) (hp : c.paused = false)
    (hm : 1 ≤ c.minorStepLimit) (hd : 1 ≤ c.decompositionLimit) (h : step M c s = .ok s') :
    (s'.failCount = s.failCount ∧
      s'.calls.filter Call.effect =
        Call.transport :: ((List.range c.numLinks).reverse).map Call.outputs) ∨
    (s'.failCount = s.failCount + 1 ∧ s'.calls.filter Call.effect = [] ∧
      c.linear = false ∧ c.mode = .normal ∧
      ((∀ l, l < c.numLinks → ∀ p, p < (s'.env.views l).ports → s'.env.ovr l p = false) →
        ∀ n, n < c.size → s'.pot n = s.majorPot n ∧ s'.env.nodePot n = s.majorPot n)) := by
  obtain ⟨it, hit, rfl⟩ := step_ok M c s s' hp h
  obtain ⟨e, hs⟩ := stepStart_eq M c s
  obtain ⟨n, d, -, -, -, -, -, -, -, -, -, -, -, -, -, hmaj, hfail⟩ := iterate_counts M c s hm
  rw [hit] at hmaj hfail
  simp only [Outcome.val] at hmaj hfail
  have hb : ((List.range c.numLinks).map Call.inputs).filter Call.effect = [] :=
    List.filter_eq_nil_iff.mpr fun x h => by
      obtain ⟨l, -, rfl⟩ := List.mem_map.mp h; simp [Call.effect]
  have hf := (minorLoop_calls M c ((List.range c.numLinks).map Call.inputs) (effectiveLimit c) _ _
    (by
      refine ⟨?_, .inl ⟨rfl, by simp, ?_⟩⟩
      · rw [hs]
      · rw [hs]) (by simp) (by
      intro h0
      unfold effectiveLimit at h0
      split at h0 <;> omega) hit).1
  rw [hb] at hf
  unfold finishStep
  dsimp only
  cases hn : it.networkConverged with
  | true =>
    left
    rw [if_pos rfl]
    obtain ⟨e, h⟩ := linksOutputs_eq M c { it.s with
      maxDecomp := (if it.s.maxDecomp < it.s.lastDecomp then it.s.lastDecomp else it.s.maxDecomp)
      env := M.transport it.s.env
      calls := it.s.calls ++ [Call.transport] }
    rw [h]
    refine ⟨hfail, ?_⟩
    dsimp only
    have e1 : ([Call.transport] : List Call).filter Call.effect = [Call.transport] := rfl
    have e2 : ((List.range c.numLinks).map (fun d => Call.outputs (c.numLinks - 1 - d))).filter Call.effect =
        (List.range c.numLinks).map (fun d => Call.outputs (c.numLinks - 1 - d)) :=
      List.filter_eq_self.mpr fun x h => by
        obtain ⟨l, -, rfl⟩ := List.mem_map.mp h; simp [Call.effect]
    rw [List.filter_append, List.filter_append, e1, e2, hf, List.nil_append, List.singleton_append]
    congr 1
    rw [List.range_eq_range', List.reverse_range', List.map_map]
    simp [Function.comp_def, List.range_eq_range']
  | false =>
    right
    have hnl : c.linear = false ∧ c.mode = .normal := by
      by_contra hc
      have hc' : c.linear = true ∨ c.mode ≠ .normal := by
        by_cases hl : c.linear = true
        · exact .inl hl
        · right; intro hmm; exact hc ⟨by simpa using hl, hmm⟩
      have hE : effectiveLimit c = 1 := by unfold effectiveLimit; rw [if_pos hc']
      unfold iterateMinorSteps at hit
      rw [hE] at hit
      have := minorLoop_single M c hc' hd _ _ (by simp [hc']) rfl hit
      rw [this] at hn
      simp at hn
    rw [if_neg (by simp)]
    refine ⟨?_, ?_, hnl.1, hnl.2, ?_⟩
    · obtain ⟨p, m, h⟩ := overridePotential_eq c { it.s with
        maxDecomp := (if it.s.maxDecomp < it.s.lastDecomp then it.s.lastDecomp else it.s.maxDecomp)
        failCount := it.s.failCount + 1
        pot := copyVec c.size it.s.majorPot it.s.pot }
      rw [h]
      obtain ⟨e, h'⟩ := outputPotential_eq c { it.s with
        maxDecomp := (if it.s.maxDecomp < it.s.lastDecomp then it.s.lastDecomp else it.s.maxDecomp)
        failCount := it.s.failCount + 1
        pot := p, minorPot := m }
      rw [h']
      dsimp only
      rw [hfail]
    · rw [(outputPotential_fields ..).2.2.2.1]
      obtain ⟨p, m, h⟩ := overridePotential_eq c { it.s with
        maxDecomp := (if it.s.maxDecomp < it.s.lastDecomp then it.s.lastDecomp else it.s.maxDecomp)
        failCount := it.s.failCount + 1
        pot := copyVec c.size it.s.majorPot it.s.pot }
      rw [h]
      exact hf
    · intro hov n hn
      rw [(outputPotential_fields ..).2.2.2.2.1, (outputPotential_fields ..).2.2.2.2.2] at hov
      have henv : (overridePotential c { it.s with
          maxDecomp := (if it.s.maxDecomp < it.s.lastDecomp then it.s.lastDecomp else it.s.maxDecomp)
          failCount := it.s.failCount + 1
          pot := copyVec c.size it.s.majorPot it.s.pot }).env = it.s.env := by
        obtain ⟨p, m, h⟩ := overridePotential_eq c { it.s with
          maxDecomp := (if it.s.maxDecomp < it.s.lastDecomp then it.s.lastDecomp else it.s.maxDecomp)
          failCount := it.s.failCount + 1
          pot := copyVec c.size it.s.majorPot it.s.pot }
        rw [h]
      rw [henv] at hov
      rw [(outputPotential_agree c _ (by rw [hnl.2]; simp)).nodes n hn, (outputPotential_fields ..).1,
        overridePotential_none c { it.s with
          maxDecomp := (if it.s.maxDecomp < it.s.lastDecomp then it.s.lastDecomp else it.s.maxDecomp)
          failCount := it.s.failCount + 1
          pot := copyVec c.size it.s.majorPot it.s.pot } hnl.2 hov]
      simp [copyVec, hn, hmaj]

/-- **C14 (saved potentials).** Every step that ends without exception, paused or not, leaves the saved
potentials equal to the potentials of the solver, if they were so before: what a later failed step returns to
are the potentials of the step before it. -/
theorem c14_saved_potentials (M : Methods σ K) (c : Cfg K) (s s' : State σ K) (h : step M c s = .ok s')
    (h0 : ∀ n, n < c.size → s.majorPot n = s.pot n) : ∀ n, n < c.size → s'.majorPot n = s'.pot n := by
  cases hp : c.paused with
  | true =>
    unfold step at h
    rw [hp, if_pos rfl] at h
    simp only [Outcome.ok.injEq] at h
    exact h ▸ h0
  | false =>
    obtain ⟨it, hit, rfl⟩ := step_ok M c s s' hp h
    intro n hn
    unfold finishStep
    simp [copyVec, hn]

/-- A link that always rejects: the step fails, nothing is output, and the potentials stay 0 although
each minor step solved the network. -/
example : isOk (step scriptMethods { pairCfg with minorStepLimit := 3 } (pairState [.reject, .reject, .reject])) =
      true ∧
    (step scriptMethods { pairCfg with minorStepLimit := 3 } (pairState [.reject, .reject, .reject])).val.failCount = 1 ∧
    (step scriptMethods { pairCfg with minorStepLimit := 3 } (pairState [.reject, .reject, .reject])).val.pot 0 = 0 ∧
    (step scriptMethods pairCfg (pairState [])).val.failCount = 0 ∧
    (step scriptMethods pairCfg (pairState [])).val.pot 0 = 3 := by
  decide +kernel

/-! ## C15 -/

/-- **C15.** A step of a non-linear network in NORMAL mode that is accepted (the failure count did not grow),
outside worst-case timing: the recorded minor steps end with a run that started with a solved step
whose potentials are all within the tolerance of the last saved ones; until the last step of the run the
links answered DELAY and nothing was solved anew; in the last step exactly the non-linear links were polled
and all of them answered CONFIRM; and the potentials after the step are those of that run. -/
theorem c15_accepted_only_if_converged (M : Methods σ K) (c : Cfg K) (s s' : State σ K) (hp : c.paused = false)
    (hlim : 1 ≤ c.minorStepLimit)
    (hl : c.linear = false) (hm : c.mode = .normal) (hw : c.worstCaseTiming = false)
    (h : step M c s = .ok s') (hacc : s'.failCount = s.failCount) :
    ∃ pre run last, s'.hist = pre ++ run ++ [last] ∧
      ConvergedRun c.size c.tolerance (run ++ [last]) s'.pot ∧
      (∀ r ∈ run, r.result = .delay) ∧
      last.answers.map Prod.fst = (List.range c.numLinks).filter (fun l => c.nonLinear l) ∧
      ∀ a ∈ last.answers, a.2 = .confirm := by
  obtain ⟨it, hit, rfl⟩ := step_ok M c s s' hp h
  obtain ⟨e, hs⟩ := stepStart_eq M c s
  obtain ⟨n, d, -, -, -, -, -, -, -, -, -, -, -, -, -, hmaj, hfail⟩ := iterate_counts M c s hlim
  rw [hit] at hfail
  simp only [Outcome.val] at hfail
  have hacc2 := minorLoop_accept M c hl hm hw (effectiveLimit c) _ _ (by
    refine ⟨by simp [hl, hm], .inl ⟨rfl, by simp⟩⟩) hit
  rcases hacc2 with hn | hA
  · exfalso
    unfold finishStep at hacc
    dsimp only at hacc
    rw [hn, if_neg (by simp)] at hacc
    obtain ⟨p, m, h⟩ := overridePotential_eq c { it.s with
      maxDecomp := (if it.s.maxDecomp < it.s.lastDecomp then it.s.lastDecomp else it.s.maxDecomp)
      failCount := it.s.failCount + 1
      pot := copyVec c.size it.s.majorPot it.s.pot }
    rw [h] at hacc
    obtain ⟨e, h'⟩ := outputPotential_eq c { it.s with
      maxDecomp := (if it.s.maxDecomp < it.s.lastDecomp then it.s.lastDecomp else it.s.maxDecomp)
      failCount := it.s.failCount + 1
      pot := p, minorPot := m }
    rw [h'] at hacc
    dsimp only at hacc
    omega
  · have hconv : it.networkConverged = true := by
      by_contra hn
      have hn : it.networkConverged = false := by simpa using hn
      unfold finishStep at hacc
      dsimp only at hacc
      rw [hn, if_neg (by simp)] at hacc
      obtain ⟨p, m, h⟩ := overridePotential_eq c { it.s with
        maxDecomp := (if it.s.maxDecomp < it.s.lastDecomp then it.s.lastDecomp else it.s.maxDecomp)
        failCount := it.s.failCount + 1
        pot := copyVec c.size it.s.majorPot it.s.pot }
      rw [h] at hacc
      obtain ⟨e, h'⟩ := outputPotential_eq c { it.s with
        maxDecomp := (if it.s.maxDecomp < it.s.lastDecomp then it.s.lastDecomp else it.s.maxDecomp)
        failCount := it.s.failCount + 1
        pot := p, minorPot := m }
      rw [h'] at hacc
      dsimp only at hacc
      omega
    have hpot : (finishStep M c it).pot = it.s.pot := by
      unfold finishStep
      dsimp only
      rw [hconv, if_pos rfl]
      obtain ⟨e, h⟩ := linksOutputs_eq M c { it.s with
        maxDecomp := (if it.s.maxDecomp < it.s.lastDecomp then it.s.lastDecomp else it.s.maxDecomp)
        env := M.transport it.s.env
        calls := it.s.calls ++ [Call.transport] }
      rw [h]
    rw [(finishStep_counts M c it).2.2.2.2.2.2.2.2, hpot]
    exact hA.run

/-- **C15 (saved potentials).** The potentials a minor step is compared with are those of the minor step
before it, or, if that one was rejected, the ones it was itself compared with. -/
theorem c15_compared_with_last_kept (M : Methods σ K) (c : Cfg K) (s s' : State σ K) (hp : c.paused = false)
    (hl : c.linear = false) (hm : c.mode = .normal) (h : step M c s = .ok s') :
    Chained c.size s'.hist := by
  obtain ⟨it, hit, rfl⟩ := step_ok M c s s' hp h
  obtain ⟨e, hs⟩ := stepStart_eq M c s
  rw [(finishStep_counts M c it).2.2.2.2.2.2.2.2]
  refine minorLoop_hist M c hl hm (effectiveLimit c) _ _ ?_ hit
  refine ⟨?_, ?_⟩
  · dsimp only
    rw [hs]
    intro pre a b post he
    simp at he
  · dsimp only
    rw [hs]
    intro pre a he
    simp at he

/-- The step of the sample: one unconverged step, one converged but delayed step, one step that only polls. -/
example : let t := (step scriptMethods pairCfg (pairState [.confirm, .delay, .confirm])).val
    t.hist.map (fun r => (r.step, r.skipped, r.result)) =
      [(1, false, .confirm), (2, false, .delay), (3, true, .confirm)] ∧ t.failCount = 0 ∧ t.pot 1 = 3 := by
  decide +kernel

/-- **C15 (finding).** In worst-case timing mode a step is accepted although its last minor step was
rejected: the convergence of an earlier minor step is not forgotten. -/
theorem c15_worst_case_timing_accepts_rejected :
    ∃ (c : Cfg ℚ) (s : State (List SolRes) ℚ), c.worstCaseTiming = true ∧ c.linear = false ∧ c.mode = .normal ∧
      ∃ s', step scriptMethods c s = .ok s' ∧ s'.failCount = s.failCount ∧
        s'.hist.map (fun r => r.result) = [.confirm, .confirm, .reject] := by
  refine ⟨{ pairCfg with worstCaseTiming := true, minorStepLimit := 3 },
    pairState [.confirm, .confirm, .reject], rfl, rfl, rfl, _, ok_val ?_, ?_, ?_⟩
  · decide +kernel
  · decide +kernel
  · decide +kernel

/-! ## C17 -/

/-- **C17.** After a step that ended without exception outside DUMMY mode: the ground node is at zero, every
other node is at the potential found by the solver, and every port is at the potential of its node.
Used of the links: answering the solver, undoing a minor step, transporting flows and processing
outputs change neither potentials nor port assignments. -/
theorem c17_potentials_agree (M : Methods σ K) (c : Cfg K) (s s' : State σ K) (hp : c.paused = false)
    (hlim : 1 ≤ c.minorStepLimit) (hm : c.mode ≠ .dummy)
    (hq : ∀ l a b, Quiet fun e => (M.confirm l a b e).2)
    (hr : ∀ l a b, Quiet fun e => (M.resetMinor l a b e).2)
    (ht : Quiet M.transport) (ho : ∀ l, Quiet (M.processOutputs l))
    (h : step M c s = .ok s') : Agree c.size c.numLinks s'.env s'.pot := by
  obtain ⟨it, hit, rfl⟩ := step_ok M c s s' hp h
  have hA := minorLoop_agree M c hm hq hr (effectiveLimit c) _ _ (by simp) (by
    intro h0
    unfold effectiveLimit at h0
    split at h0 <;> omega) hit
  unfold finishStep
  dsimp only
  split
  · rename_i hn
    rcases hA with hA | hA
    · rw [hA] at hn; simp at hn
    · have h1 := ht.agree hA
      have h2 : ∀ t : State σ K, Agree c.size c.numLinks t.env t.pot →
          Agree c.size c.numLinks (linksOutputs M c t).env (linksOutputs M c t).pot := by
        intro t hT
        unfold linksOutputs
        refine loop_inv (P := fun _ (t : State σ K) => Agree c.size c.numLinks t.env t.pot) _ hT ?_
        rintro k - u hu
        exact (ho _).agree hu
      exact h2 _ h1
  · exact outputPotential_agree c _ hm

/-- **C17 (pause).** A paused network does not change. -/
theorem c17_pause (M : Methods σ K) (c : Cfg K) (s : State σ K) (hp : c.paused = true) :
    step M c s = .ok s := by
  unfold step
  rw [if_pos hp]

example : (∀ l a b, Quiet fun e => (scriptMethods.confirm l a b e).2) ∧
    (∀ l a b, Quiet fun e => (scriptMethods.resetMinor l a b e).2) ∧
    Quiet scriptMethods.transport ∧ ∀ l, Quiet (scriptMethods.processOutputs l) := by
  refine ⟨?_, ?_, ?_, ?_⟩ <;> intros <;> intro e <;> exact ⟨rfl, rfl, fun _ => ⟨rfl, rfl⟩⟩

example : let t := (step scriptMethods pairCfg (pairState [])).val
    t.env.nodePot 1 = 3 ∧ t.env.nodePot 2 = 0 ∧ t.env.linkPot 1 0 = 3 ∧ t.env.linkPot 1 1 = 0 := by
  decide +kernel

end Gunns.Props
