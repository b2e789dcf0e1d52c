import Verif.Elect.NetworkLemmas
import Verif.Props.Solver

/-!
# Property C40: switches trip in the order of their priorities

Several switches may see an over-current or a wrong voltage in one solution of the network.  Each waits until its
priority number of converged minor steps has passed and answers DELAY; when its turn comes, it trips and answers REJECT,
and the network is solved again before any other switch trips.
-/

set_option linter.unusedSectionVars false

namespace Gunns.Props

open Gunns Gunns.Sw

variable {σ K : Type _} [Field K] [LinearOrder K] [IsStrictOrderedRing K]
  {M : Methods σ K} {c : Cfg K} {isSw : Nat → Prop} {sw : Nat → σ → Switch K} {amps volts : Nat → Env σ K → K}
  {prio : Nat → Nat}

theorem coordInv_start (hl : c.linear = false) (hm : c.mode = .normal) (s : State σ K) (hh : s.hist = []) :
    CoordInv c isSw sw amps volts prio
      { s := { s with lastDecomp := 0, lastMinor := 1 }
        networkConverged := decide (c.linear = true ∨ c.mode ≠ .normal)
        convergedStep := 0, result := .confirm } := by
  refine ⟨?_, ?_, .inl ⟨rfl, by simp⟩⟩
  · simp [hl, hm]
  · intro r hr
    dsimp only at hr
    rw [hh] at hr
    simp at hr

/-- C40: whatever the other links do, a switch of the network trips (or resets a voltage trip) only in the minor step
whose count of converged steps is its priority, and in that minor step every switch with a lower priority number has
confirmed the solution: of the switches that see a fault, those with the lowest number go first, and nobody else until
the network has been solved again. -/
theorem c40_lowest_priority_first (hN : SwitchNet M isSw sw amps volts) (hp : ∀ l x, isSw l → Priority (sw l x) (prio l))
    (h0 : ∀ l, isSw l → 0 < prio l) (hl : c.linear = false) (hm : c.mode = .normal) (hw : c.worstCaseTiming = false)
    (hrun : c.paused = false) {s s' : State σ K} (h : step M c s = .ok s') :
    ∀ r ∈ s'.hist, Coordinated c isSw prio r := by
  obtain ⟨it, hit, rfl⟩ := step_ok M c s s' hrun h
  obtain ⟨e, hs⟩ := stepStart_eq M c s
  rw [(finishStep_counts M c it).2.2.2.2.2.2.2.2]
  exact (minorLoop_coordinated hN hp h0 hl hm hw (effectiveLimit c) _ _
    (coordInv_start hl hm _ (by rw [hs])) hit).hist

/-- C40: a solution is accepted only if no switch of the network has a reason to trip or to reset left. -/
theorem c40_accepted_without_fault (hN : SwitchNet M isSw sw amps volts)
    (hp : ∀ l x, isSw l → Priority (sw l x) (prio l)) (h0 : ∀ l, isSw l → 0 < prio l) (hl : c.linear = false)
    (hm : c.mode = .normal) (hw : c.worstCaseTiming = false) {s : State σ K} (hh : s.hist = []) {it : Iter σ K}
    (h : iterateMinorSteps M c s = .ok it) (hc : it.networkConverged = true) :
    ∀ l, Polled c isSw l → ¬ Pending (sw l it.s.env.priv) (amps l it.s.env) (volts l it.s.env) :=
  (minorLoop_coordinated hN hp h0 hl hm hw (effectiveLimit c) _ _ (coordInv_start hl hm s hh) h).quiet hc

/-! ## A network with two switches in series

Link 2 is a source of 3 V with a resistance of 1 Ω, link 0 a switch with priority 2, link 1 a switch with priority 1
and a load behind it.  Both switches trip above 1/2 A; the current is 1 A. -/

/-- A switch in a reachable state, with priority `p`. -/
abbrev Sample (p : Nat) : Type := { s : Switch ℚ // Reached s ∧ Priority s p }

/-- Configuration of a sample switch. -/
def sampleData (p : Nat) : Data ℚ :=
  { resistance := 1, tripPriority := p, position := true, command := true, resetCommand := false
    uvLimit := 0, uvReset := 0, ovLimit := 0, ovReset := 0, posLimit := 1 / 2, negLimit := 0 }

/-- The sample switch after initialisation. -/
def sampleSwitch (p : Nat) : Switch ℚ :=
  { failClosed := false
    failOpen := false
    resistance := 1
    position := true
    command := true
    resetCommand := false
    uv := Trip.make 0 p
    uvReset := Trip.make 0 p
    ov := Trip.make 0 p
    ovReset := Trip.make 0 p
    posAmps := Trip.make (1 / 2) p
    negAmps := Trip.make 0 p
    waiting := false
    just := false }

theorem sampleSwitch_ok (p : Nat) : Reached (sampleSwitch p) ∧ Priority (sampleSwitch p) p := by
  constructor
  · refine ⟨sampleData p, sampleSwitch p, [], ?_, rfl⟩
    unfold make
    rw [if_neg (by unfold sampleData fltEps; norm_num), if_neg (by unfold sampleData; norm_num),
      if_neg (by unfold sampleData; norm_num)]
    rfl
  · intro w
    cases w <;> exact ⟨rfl, rfl⟩

theorem sample_state {p : Nat} (s : Sample p) : Reached s.1.updateState ∧ Priority s.1.updateState p := by
  refine ⟨reached_apply s.2.1 .state, fun w => ?_⟩
  obtain ⟨-, -, h, -⟩ := updateState_keeps s.1
  obtain ⟨a, -, b⟩ := h w
  rw [a, b]
  exact s.2.2 w

theorem sample_confirm {p : Nat} (s : Sample p) (i v : ℚ) (n : Nat) :
    Reached (linkConfirm s.1 i v n).2 ∧ Priority (linkConfirm s.1 i v n).2 p := by
  unfold linkConfirm
  split
  · refine ⟨reached_apply s.2.1 (.trips i v n), fun w => ?_⟩
    obtain ⟨h, -⟩ := updateTrips_keeps (reached_fresh s.2.1) i v n
    obtain ⟨a, -, b, -⟩ := h w
    dsimp only
    rw [a, b]
    exact s.2.2 w
  · exact s.2

/-- The current through a link of the sample network. -/
def sampleAmps (l : Nat) (e : Env (Sample 2 × Sample 1) ℚ) : ℚ :=
  (e.views l).adm 0 * (e.linkPot l 0 - e.linkPot l 1)

/-- The voltage at the first port of a link. -/
def sampleVolts (l : Nat) (e : Env (Sample 2 × Sample 1) ℚ) : ℚ := e.linkPot l 0

/-- Contribution of a switch between the given nodes. -/
def sampleView (nodes : List Nat) (closed : Bool) : LinkView ℚ :=
  mkLink 2 2 nodes (if closed then [1, -1, -1, 1] else [0, 0, 0, 0]) [0, 0]

/-- Step and minor step of a link of the sample network. -/
def sampleStep (l : Nat) (e : Env (Sample 2 × Sample 1) ℚ) : Env (Sample 2 × Sample 1) ℚ :=
  if l = 0 then
    { e with
      priv := (⟨e.priv.1.1.updateState, sample_state e.priv.1⟩, e.priv.2)
      views := fun i => if i = 0 then sampleView [0, 1] e.priv.1.1.updateState.position else e.views i }
  else if l = 1 then
    { e with
      priv := (e.priv.1, ⟨e.priv.2.1.updateState, sample_state e.priv.2⟩)
      views := fun i => if i = 1 then sampleView [1, 2] e.priv.2.1.updateState.position else e.views i }
  else e

/-- Links of the sample network. -/
def sampleMethods : Methods (Sample 2 × Sample 1) ℚ where
  processInputs _ e := e
  resetFlows e := e
  step l e := sampleStep l e
  minorStep l _ e := sampleStep l e
  needAdmittanceUpdate _ e := (true, e)
  confirm l n _ e :=
    if l = 0 then
      ((linkConfirm e.priv.1.1 (sampleAmps 0 e) (sampleVolts 0 e) n).1,
        { e with priv := (⟨_, sample_confirm e.priv.1 (sampleAmps 0 e) (sampleVolts 0 e) n⟩, e.priv.2) })
    else if l = 1 then
      ((linkConfirm e.priv.2.1 (sampleAmps 1 e) (sampleVolts 1 e) n).1,
        { e with priv := (e.priv.1, ⟨_, sample_confirm e.priv.2 (sampleAmps 1 e) (sampleVolts 1 e) n⟩) })
    else (.confirm, e)
  resetMinor _ _ _ e := (true, e)
  transport e := e
  processOutputs _ e := e

/-- Switch of a link of the sample network. -/
def sampleSw (l : Nat) (x : Sample 2 × Sample 1) : Switch ℚ := if l = 0 then x.1.1 else x.2.1

/-- Priority of a switch of the sample network. -/
def samplePrio (l : Nat) : Nat := if l = 0 then 2 else 1

theorem sample_net : SwitchNet sampleMethods (fun l => l < 2) sampleSw sampleAmps sampleVolts where
  reached l x _ := by
    unfold sampleSw
    split
    · exact x.1.2.1
    · exact x.2.2.1
  confirm l n m e hl := by
    have : l = 0 ∨ l = 1 := by omega
    rcases this with rfl | rfl <;> exact ⟨rfl, rfl⟩
  confirmOther l j n m e hl hj := by
    have h1 : l = 0 ∨ l = 1 := by omega
    by_cases j0 : j = 0
    · subst j0
      rcases h1 with rfl | rfl
      · exact absurd rfl hj
      · rfl
    · by_cases j1 : j = 1
      · subst j1
        rcases h1 with rfl | rfl
        · rfl
        · exact absurd rfl hj
      · simp only [sampleMethods, j0, j1, if_false]
  readings l j n m e hl := by
    by_cases j0 : j = 0
    · subst j0; exact ⟨rfl, rfl⟩
    · by_cases j1 : j = 1
      · subst j1; exact ⟨rfl, rfl⟩
      · simp only [sampleMethods, j0, j1, if_false, and_self]

theorem sample_prio : ∀ l x, l < 2 → Priority (sampleSw l x) (samplePrio l) := by
  intro l x hl
  have h1 : l = 0 ∨ l = 1 := by omega
  rcases h1 with rfl | rfl
  · exact x.1.2.2
  · exact x.2.2.2

/-- Configuration of the sample network. -/
def sampleCfg : Cfg ℚ := { pairCfg with nonLinear := fun l => decide (l < 2) }

/-- State of the sample network before its first step. -/
def sampleStart : State (Sample 2 × Sample 1) ℚ where
  env := { views := fun i => if i = 0 then sampleView [0, 1] true else if i = 1 then sampleView [1, 2] true
             else mkLink 2 2 [0, 2] [1, -1, -1, 1] [3, -3]
           linkPot := fun _ _ => 0, ovr := fun _ _ => false, nodePot := fun _ => 0
           priv := (⟨sampleSwitch 2, sampleSwitch_ok 2⟩, ⟨sampleSwitch 1, sampleSwitch_ok 1⟩) }
  pot _ := 0
  minorPot _ := 0
  majorPot _ := 0
  mat _ _ := 0
  rebuild := true
  majorCount := 0
  minorCount := 0
  maxMinor := 0
  lastMinor := 0
  decompCount := 0
  maxDecomp := 0
  lastDecomp := 0
  failCount := 0
  resetFailCount := 0
  sorLast := -1
  sorFailCount := 0
  hist := []
  calls := []
  solves := []
  decomps := 0

/-- Both switches see the over-current; only the one with priority 1 trips, the other delays and, once the network has
been solved without the current, confirms. -/
example : isOk (step sampleMethods sampleCfg sampleStart) = true ∧
    (step sampleMethods sampleCfg sampleStart).val.hist.map (fun r => (r.convergedStep, r.answers)) =
      [(0, [(0, .delay), (1, .delay)]), (1, [(0, .delay), (1, .reject)]), (0, [(0, .delay), (1, .delay)]),
       (1, [(0, .confirm), (1, .confirm)])] ∧
    (step sampleMethods sampleCfg sampleStart).val.failCount = 0 ∧
    2 < (step sampleMethods sampleCfg sampleStart).val.pot 1 := by
  decide +kernel

example : ∀ r ∈ (step sampleMethods sampleCfg sampleStart).val.hist,
    Coordinated sampleCfg (fun l => l < 2) samplePrio r :=
  c40_lowest_priority_first sample_net sample_prio
    (fun l _ => by unfold samplePrio; split <;> decide) rfl rfl rfl rfl
    (ok_val (show isOk (step sampleMethods sampleCfg sampleStart) = true by decide +kernel))

end Gunns.Props
