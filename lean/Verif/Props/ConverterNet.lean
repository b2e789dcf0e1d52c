import Verif.Elect.ConverterNetLemmas
import Verif.Props.Converter
import Verif.Props.Solver

/-!
# Property C55: the handshake of a converter's links in the network

The output declares its power invalid after every rejection and the input rejects solutions while it is.  So no solution
computed with the power zero put in after a rejection is accepted; but a network may be stuck in rejections, and a
converter with one link on ground, as a spare, stops the whole network.
-/

set_option linter.unusedSectionVars false

namespace Gunns.Props

open Gunns Gunns.Elements Gunns.Conv

variable {σ K : Type _} [Field K] [LinearOrder K] {M : Methods σ K} {c : Cfg K} {sq : K → K} {a b : Nat}
  {get : σ → Pair K}

/-! ## A sample network -/

/-- What a link of a converter contributes; ground is node 2. -/
def convView (ground : Bool) (node : Nat) (adm src : ℚ) : LinkView ℚ := mkLink 2 1 [if ground then 2 else node] [adm] [src]

/-- The links of the sample network show the state of the converter. -/
def convShow (e : Env (Pair ℚ) ℚ) (p : Pair ℚ) : Env (Pair ℚ) ℚ :=
  { e with
    priv := p
    views := fun l =>
      if l = 0 then convView p.inp.ground 0 p.inp.adm p.inp.source
      else if l = 1 then convView p.out.ground 1 p.out.adm p.out.source
      else e.views l }

/-- Links 0 and 1 are a converter, the others are constant. -/
def convMethods : Methods (Pair ℚ) ℚ where
  processInputs _ e := e
  resetFlows e := e
  step l e :=
    if l = 0 then convShow e (seen 0 1 e e.priv).inStep
    else if l = 1 then convShow e ((seen 0 1 e e.priv).outStep noRoot) else e
  minorStep l m e :=
    if l = 0 then convShow e (seen 0 1 e e.priv).inMinor
    else if l = 1 then convShow e ((seen 0 1 e e.priv).outMinor noRoot m) else e
  needAdmittanceUpdate _ e := (true, e)
  confirm l n _ e :=
    if l = 0 then (((seen 0 1 e e.priv).inConfirm n).1, convShow e ((seen 0 1 e e.priv).inConfirm n).2)
    else if l = 1 then (((seen 0 1 e e.priv).outConfirm noRoot n).1, convShow e ((seen 0 1 e e.priv).outConfirm noRoot n).2)
    else (.confirm, e)
  resetMinor l n _ e :=
    if l = 0 then
      (true, { convShow e ((seen 0 1 e e.priv).inReset n) with
        linkPot := fun l p => if l = 0 ∧ p = 0 then ((seen 0 1 e e.priv).inReset n).inp.pot else e.linkPot l p })
    else if l = 1 then (true, convShow e (seen 0 1 e e.priv).outReset) else (true, e)
  transport e := convShow e { e.priv with
    inp := e.priv.inp.flows
    out := e.priv.out.flows }
  processOutputs _ e := e

theorem conv_net : ConvNet convMethods noRoot 0 1 id where
  stepIn _ := rfl
  stepOut _ := rfl
  stepOther l e h0 h1 := by simp only [convMethods, h0, h1, if_false]
  minorIn _ _ := rfl
  minorOut _ _ := rfl
  minorOther l m e h0 h1 := by simp only [convMethods, h0, h1, if_false]
  confirmIn _ _ _ := ⟨rfl, rfl⟩
  confirmOut _ _ _ := ⟨rfl, rfl⟩
  confirmOther l n m e h0 h1 := by simp only [convMethods, h0, h1, if_false]
  resetIn _ _ _ := rfl
  resetOut _ _ _ := rfl
  resetOther l n m e h0 h1 := by simp only [convMethods, h0, h1, if_false]
  inputs _ _ := rfl
  flows _ := rfl
  update _ _ := rfl
  transport _ := ⟨rfl, rfl, rfl⟩
  outputs _ _ := rfl

/-- Configuration of the sample network. -/
def convCfg : Cfg ℚ := { pairCfg with
  numLinks := 4
  nonLinear := fun l => decide (l < 2)
  minorStepLimit := 6
  decompositionLimit := 20 }

theorem conv_hosted : Hosted convCfg 0 1 := by
  refine ⟨by decide, by decide, by decide, by decide, by decide, rfl, rfl, rfl⟩

/-- The sample network before its first step: a supply of 100 V at the input, and at the output a source that would hold
its node at `v` without the converter. -/
def convStart (p : Pair ℚ) (v : ℚ) : State (Pair ℚ) ℚ where
  env := convShow
    { views := fun l => if l = 2 then mkLink 2 1 [0] [1] [100] else mkLink 2 1 [1] [1] [v]
      linkPot := fun _ _ => 0, ovr := fun _ _ => false, nodePot := fun _ => 0, priv := p } p
  pot _ := 0
  minorPot _ := 0
  majorPot _ := 0
  mat _ _ := 0
  rebuild := true
  majorCount := 0
  minorCount := 0
  maxMinor := 0
  lastMinor := 0
  decompCount := 0
  maxDecomp := 0
  lastDecomp := 0
  failCount := 0
  resetFailCount := 0
  sorLast := -1
  sorFailCount := 0
  hist := []
  calls := []
  solves := []
  decomps := 0

/-- A few steps of a network: failures and results of the minor steps of the last one. -/
def report (n : Nat) (s : State (Pair ℚ) ℚ) : Nat × List (Nat × SolRes) :=
  match n with
  | 0 => (s.failCount, s.hist.map fun r => (r.convergedStep, r.result))
  | n + 1 => match step convMethods convCfg s with
    | .ok t => report n t
    | _ => (1000, [])

/-- The sample converter, disabled. -/
def disabledPair : Pair ℚ := { samplePair with out := { sampleOut with enabled := false } }

/-- The sample converter with its input on ground. -/
def spareInPair : Pair ℚ := { samplePair with inp := { sampleIn with ground := true } }

/-- The sample converter with its output on ground. -/
def spareOutPair : Pair ℚ := { samplePair with out := { sampleOut with ground := true } }

/-- In ordinary use the network converges: the output is switched on in the second step, the solution found then. -/
example : report 1 (convStart samplePair 0) = (0, [(0, .confirm), (1, .confirm)]) ∧
    (report 2 (convStart samplePair 0)).1 = 0 := by decide +kernel

/-! ## No solution with a stale power -/

/-- C55: a converged solution that follows a rejected one is rejected, if the input link comes first; so a solution is
accepted only if the solution before it was not rejected, and the power the input took was computed by the output
from a solution that was not thrown away. -/
theorem c55_no_stale (hN : ConvNet M sq a b get) (hh : Hosted c a b) (hab : a < b) (hw : c.worstCaseTiming = false)
    (s s' : State σ K) (hlk : (get s.env.priv).linked = true) (hg : (get s.env.priv).inp.ground = false)
    (h : step M c s = .ok s') :
    (∀ pre r1 r2 post, s'.hist = pre ++ r1 :: r2 :: post → r1.result = .reject → 0 < r2.convergedStep →
      r2.result = .reject) ∧
    (s'.failCount = s.failCount + 1 ∨ (s'.failCount = s.failCount ∧
      ∃ pre x, s'.hist = pre ++ [x] ∧ x.result = .confirm ∧ 0 < x.convergedStep ∧
        ∀ pre' r, pre = pre' ++ [r] → r.result ≠ .reject)) := by
  obtain ⟨h1, h2⟩ := sticky_step hN hh hab hw s s' hlk hg h
  refine ⟨h1, h2.imp_right ?_⟩
  rintro ⟨h3, pre, x, h4, h5, h6⟩
  refine ⟨h3, pre, x, h4, h5, h6, fun pre' r hp hr => ?_⟩
  have := h1 pre' r x [] (by rw [h4, hp]; simp) hr h6
  rw [h5] at this
  cases this

/-! ## Stuck in rejections -/

/-- C55, failure: once the output has declared its power invalid, and as long as the solutions are within the tolerance
of the saved ones, no step converges: each solution is rejected because the power is invalid, and each rejection makes
it invalid again. -/
theorem c55_stuck (hN : ConvNet M sq a b get) (hh : Hosted c a b) (hab : a < b) (n : Nat) (s s' : State σ K)
    (hlk : (get s.env.priv).linked = true) (hg : (get s.env.priv).inp.ground = false)
    (hv : (get s.env.priv).out.powerValid = false)
    (h : Steps M c (fun u => ∀ r ∈ u.hist, 0 < r.convergedStep) n s s') :
    s'.failCount = s.failCount + n ∧ (0 < n → ∀ r ∈ s'.hist, r.result = .reject) := by
  have key : ∀ {n : Nat} {s s' : State σ K}, Steps M c (fun u => ∀ r ∈ u.hist, 0 < r.convergedStep) n s s' →
      (get s.env.priv).linked = true → (get s.env.priv).inp.ground = false →
      (get s.env.priv).out.powerValid = false →
      ((get s'.env.priv).linked = true ∧ (get s'.env.priv).inp.ground = false ∧
        (get s'.env.priv).out.powerValid = false) ∧
      s'.failCount = s.failCount + n ∧ (0 < n → ∀ r ∈ s'.hist, r.result = .reject) := by
    intro n s s' h
    induction h with
    | zero s => exact fun h1 h2 h3 => ⟨⟨h1, h2, h3⟩, rfl, fun h => absurd h (lt_irrefl _)⟩
    | succ _ hs hg ih =>
      intro h1 h2 h3
      obtain ⟨⟨k1, k2, k3⟩, k4, -⟩ := ih h1 h2 h3
      obtain ⟨m1, m2, m3⟩ := stuck_step hN hh hab _ _ k1 k2 k3 hs hg
      exact ⟨m1, by rw [m2, k4]; omega, fun _ => m3⟩
  exact (key h hlk hg hv).2

/-- C55, failure: a voltage regulator that is off and faces a node that others hold above zero rejects the converged
solution to go to reverse bias, although it does not take part in the solution. -/
theorem c55_off_rejects (sq : K → K) (p : Pair K) (m n : Nat) (v : K) (hg : p.out.ground = false)
    (hoff : p.out.enabled = false) (hreg : p.out.reg.Holds) (hl : p.out.limit ≠ .oc) (hrev : p.out.reverse = false)
    (hf : p.out.reverseFlips < p.out.flipsLimit) (hn : 0 < n) (hv : 0 < v) :
    let q : Pair K := { p.outMinor sq m with out := { (p.outMinor sq m).out with pot := v } };
    q.out.adm = 0 ∧ q.out.source = 0 ∧ (q.outConfirm sq n).1 = .reject ∧
    (q.outConfirm sq n).2.out.powerValid = false := by
  intro q
  have hown : ∃ x l h i j, p.out.ownPower = { p.out with
      flux := x
      power := l
      channelLoss := h
      loss := i
      inputPower := j } := by
    unfold Out.ownPower Out.computePower Out.computeFlux
    split
    · exact ⟨_, _, _, _, _, rfl⟩
    · exact ⟨_, _, _, _, _, rfl⟩
  obtain ⟨x, l, h, i, j, ho⟩ := hown
  have hq : ∃ (o : Out K), o.ground = false ∧ o.enabled = false ∧ o.reg = p.out.reg ∧ o.limit = p.out.limit ∧
      o.reverse = false ∧ o.reverseFlips = p.out.reverseFlips ∧ o.flipsLimit = p.out.flipsLimit ∧
      (p.outMinor sq m).out = o.contribute sq := by
    unfold Pair.outMinor
    rw [hg, if_neg Bool.false_ne_true]
    dsimp only
    refine ⟨_, ?_, ?_, ?_, ?_, ?_, ?_, ?_, rfl⟩ <;> rw [ho] <;> split_ifs <;>
      first | exact hg | exact hoff | exact hrev | rfl
  obtain ⟨o, o1, o2, o3, o4, o5, o6, o7, o8⟩ := hq
  have hc : (p.outMinor sq m).out = { o.estimateLoad with
      sourceVoltage := 0
      adm := 0
      source := 0 } := by
    rw [o8]
    unfold Out.contribute
    have he : o.estimateLoad.enabled = false := by
      unfold Out.estimateLoad Out.computeFlux
      exact o2
    dsimp only
    rw [he]
    have hr0 : limitRange 0 (0 : K) condLimit = 0 := by
      unfold limitRange condLimit
      exact max_eq_right (min_le_left _ _)
    simp only [Bool.false_and, Bool.false_eq_true, if_false, ite_self, hr0, mul_zero, add_zero]
  have hqo : q.out = { o.estimateLoad with
      sourceVoltage := 0
      adm := 0
      source := 0
      pot := v } := by
    show ({ (p.outMinor sq m).out with pot := v } : Out K) = _
    rw [hc]
  have hb : (q.out.updateBias .confirm n false).1 = .reject := by
    rw [hqo]
    unfold Out.updateBias Out.estimateLoad Out.computeFlux
    dsimp only
    have hnv : ¬ (o.limit = .oc ∨ (o.limit = .no ∧ o.reg.isVoltage = false)) := by
      rw [o3, o4]
      rintro (g | ⟨-, g⟩)
      · exact hl g
      · rcases hreg with r | r <;> rw [r] at g <;> cases g
    rw [if_neg hnv, if_neg (not_le.mpr hv), o5, o6, o7,
      if_pos (show n > 0 ∧ p.out.reverseFlips < p.out.flipsLimit ∧ (false || false) = false from ⟨hn, hf, rfl⟩)]
    rfl
  have hj : q.out.judge sq n = q.out.updateBias .confirm n false := by
    unfold Out.judge
    dsimp only
    rw [if_neg (fun g => g.2 hb)]
  have hqg : q.out.ground = false := by
    rw [hqo]
    exact o1
  refine ⟨by rw [hqo], by rw [hqo], ?_, ?_⟩
  · unfold Pair.outConfirm
    rw [hqg, if_neg Bool.false_ne_true]
    dsimp only
    rw [hj, hb]
    exact ite_self _
  · unfold Pair.outConfirm
    rw [hqg, if_neg Bool.false_ne_true]
    dsimp only
    rw [hj, hb]
    split <;> rfl

/-- A disabled converter at a node held at 1 V by another source: from its first converged solution on the network
rejects, and no step converges. -/
example : report 1 (convStart disabledPair 1) =
      (1, [(0, .confirm), (1, .reject), (1, .reject), (1, .reject), (1, .reject), (1, .reject)]) ∧
    report 2 (convStart disabledPair 1) =
      (2, [(1, .reject), (1, .reject), (1, .reject), (1, .reject), (1, .reject), (1, .reject)]) ∧
    (report 3 (convStart disabledPair 1)).1 = 3 := by decide +kernel

/-! ## Spares -/

/-- C55, failure: a converter whose input is on ground, as a spare, while its output is not.  Once the input has been
polled, no step converges. -/
theorem c55_spare_input (hN : ConvNet M sq a b get) (hh : Hosted c a b) (n : Nat) (s s' : State σ K)
    (hs : SpareIn (get s.env.priv)) (hv : (get s.env.priv).inp.voltageValid = false)
    (h : Steps M c (fun _ => True) n s s') : s'.failCount = s.failCount + n := by
  obtain ⟨na, nb, la, lb, hne, hl, hm, hp⟩ := hh
  have hk := keeps_deadIn hN
  have hrej : ∀ n m e, 0 < n → (SpareIn (get e.priv) ∧ (get e.priv).inp.voltageValid = false) →
      (confirmSolution M c n m e).result = .reject := by
    intro n m e hn he
    obtain ⟨e', ⟨p1, p2⟩, he'⟩ := poll_at (M := M) (c := c)
      (fun x => SpareIn (get x) ∧ (get x).inp.voltageValid = false) b nb lb n m
      (fun l e _ h => hk.confirm l n m e h) e he
    have hans : (M.confirm b n m e').1 = .reject := by
      rw [(hN.confirmOut _ _ _).1]
      exact outConfirm_invalid _ _ n p1.1 p1.2.2 p2
    rw [hans] at he'
    exact (confirmSolution_spec M c n m e).2.2.1.mpr ⟨b, he'⟩
  have key : ∀ {n : Nat} {s s' : State σ K}, Steps M c (fun _ => True) n s s' →
      (SpareIn (get s.env.priv) ∧ (get s.env.priv).inp.voltageValid = false) →
      (SpareIn (get s'.env.priv) ∧ (get s'.env.priv).inp.voltageValid = false) ∧ s'.failCount = s.failCount + n := by
    intro n s s' h
    induction h with
    | zero s => exact fun h => ⟨h, rfl⟩
    | succ _ hst _ ih =>
      intro h1
      obtain ⟨k1, k2⟩ := ih h1
      obtain ⟨m1, m2, -⟩ := dead_step _ hk hl hm hp hrej _ _ k1 hst
      exact ⟨m1, by rw [m2, k2]; omega⟩
  exact (key h ⟨hs, hv⟩).2

/-- C55, failure: likewise a converter whose output is on ground while its input is not. -/
theorem c55_spare_output (hN : ConvNet M sq a b get) (hh : Hosted c a b) (n : Nat) (s s' : State σ K)
    (hs : SpareOut (get s.env.priv)) (hv : (get s.env.priv).out.powerValid = false)
    (h : Steps M c (fun _ => True) n s s') : s'.failCount = s.failCount + n := by
  obtain ⟨na, nb, la, lb, hne, hl, hm, hp⟩ := hh
  have hk := keeps_deadOut hN
  have hrej : ∀ n m e, 0 < n → (SpareOut (get e.priv) ∧ (get e.priv).out.powerValid = false) →
      (confirmSolution M c n m e).result = .reject := by
    intro n m e hn he
    obtain ⟨e', ⟨p1, p2⟩, he'⟩ := poll_at (M := M) (c := c)
      (fun x => SpareOut (get x) ∧ (get x).out.powerValid = false) a na la n m
      (fun l e _ h => hk.confirm l n m e h) e he
    have hans : (M.confirm a n m e').1 = .reject := by
      rw [(hN.confirmIn _ _ _).1]
      exact inConfirm_invalid _ n hn p1.1 p1.2.2 p2
    rw [hans] at he'
    exact (confirmSolution_spec M c n m e).2.2.1.mpr ⟨a, he'⟩
  have key : ∀ {n : Nat} {s s' : State σ K}, Steps M c (fun _ => True) n s s' →
      (SpareOut (get s.env.priv) ∧ (get s.env.priv).out.powerValid = false) →
      (SpareOut (get s'.env.priv) ∧ (get s'.env.priv).out.powerValid = false) ∧ s'.failCount = s.failCount + n := by
    intro n s s' h
    induction h with
    | zero s => exact fun h => ⟨h, rfl⟩
    | succ _ hst _ ih =>
      intro h1
      obtain ⟨k1, k2⟩ := ih h1
      obtain ⟨m1, m2, -⟩ := dead_step _ hk hl hm hp hrej _ _ k1 hst
      exact ⟨m1, by rw [m2, k2]; omega⟩
  exact (key h ⟨hs, hv⟩).2

/-- C55: the flags of spares are invalid after their first poll, whatever they were before. -/
theorem c55_spare_polled (hN : ConvNet M sq a b get) (n m : Nat) (e : Env σ K) :
    ((get e.priv).inp.ground = true → (get (M.confirm a n m e).2.priv).inp.voltageValid = false) ∧
    ((get e.priv).out.ground = true → (get (M.confirm b n m e).2.priv).out.powerValid = false) := by
  refine ⟨fun h => ?_, fun h => ?_⟩
  · rw [(hN.confirmIn n m e).2]
    exact (inConfirm_same _ _).2.2 h
  · rw [(hN.confirmOut n m e).2]
    exact (outConfirm_same _ _ _).2.2 h

example : SpareIn spareInPair ∧ SpareOut spareOutPair := ⟨⟨rfl, rfl, rfl⟩, rfl, rfl, rfl⟩

/-- Three steps with each of the spares. -/
example : (report 3 (convStart spareInPair 0)).1 = 3 ∧ (report 3 (convStart spareOutPair 0)).1 = 3 := by decide +kernel

end Gunns.Props
