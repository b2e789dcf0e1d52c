import Verif.Net.Islands

/-!
# Model of the step of the network solver (`Gunns::step` and what it calls, core/Gunns.cpp)

Link objects are known to the solver through virtual functions only.  They are modelled by arbitrary
functions (`Methods`) on the state of all links and nodes (`Env`), so that every statement holds for all
link classes.  Simplifications, common to the whole file:

* link methods do not throw;
* `isNonLinear` of a link is constant;
* GPU solvers, the minor step log, messages, timing and debug arrays are left out; `mDebugDesiredStep`,
  which forces rebuilds, is kept;
* the network capacitance solutions (Gunns.cpp:1050, 1053) are left out here: they only solve with the
  same matrix and restore the source vector, and the final `solveCholesky` overwrites the potentials;
* ghost fields record the history of the step for the statements: `hist` (one record per minor
  step), `calls` (calls of virtual functions), `solves` (direct solutions) and `decomps` (number of
  decompositions);
* `setPotential` of a node is an assignment.
-/

namespace Gunns

/-- `GunnsBasicLink::SolutionResult`, GunnsBasicLink.hh. -/
inductive SolRes where
  | reject | confirm | delay
deriving DecidableEq

/-- `Gunns::SolverMode`. -/
inductive SolverMode where
  | normal | slave | dummy
deriving DecidableEq

/-- State of all links and nodes, as far as the solver sees it. -/
structure Env (σ K : Type _) where
  /-- what link `i` contributes -/
  views : Nat → LinkView K
  /-- `mPotentialVector` of link `i` -/
  linkPot : Nat → Nat → K
  /-- `mOverrideVector` of link `i` -/
  ovr : Nat → Nat → Bool
  /-- `mPotential` of each node, ground included -/
  nodePot : Nat → K
  /-- everything else -/
  priv : σ

/-- The virtual functions of links, nodes and the flow orchestrator, by link index. -/
structure Methods (σ K : Type _) where
  processInputs : Nat → Env σ K → Env σ K
  /-- `resetFlows` of all nodes -/
  resetFlows : Env σ K → Env σ K
  step : Nat → Env σ K → Env σ K
  minorStep : Nat → Nat → Env σ K → Env σ K
  needAdmittanceUpdate : Nat → Env σ K → Bool × Env σ K
  /-- `confirmSolutionAcceptable(convergedStep, absoluteStep)` -/
  confirm : Nat → Nat → Nat → Env σ K → SolRes × Env σ K
  /-- `resetLastMinorStep(convergedStep, absoluteStep)` -/
  resetMinor : Nat → Nat → Nat → Env σ K → Bool × Env σ K
  /-- flow orchestrator update -/
  transport : Env σ K → Env σ K
  processOutputs : Nat → Env σ K → Env σ K

/-- Ghost: calls of virtual functions. -/
inductive Call where
  | inputs (link : Nat)
  | step (link : Nat)
  | minor (link minorStep : Nat)
  | poll (link convergedStep minorStep : Nat)
  | reset (link : Nat)
  | transport
  | outputs (link : Nat)
deriving DecidableEq

/-- Ghost: what happened in one minor step of a non-linear network. -/
structure MinorRec (K : Type _) where
  /-- minor step number -/
  step : Nat
  /-- link step and solution were skipped because the last answer was DELAY -/
  skipped : Bool
  /-- saved minor step potentials before this step -/
  before : Nat → K
  /-- potentials of this step -/
  pot : Nat → K
  /-- number of steps counted as converged when the links were polled -/
  convergedStep : Nat
  /-- answer of each polled link -/
  answers : List (Nat × SolRes)
  /-- combined answer -/
  result : SolRes

/-- Configuration and user controls, fixed during a step. -/
structure Cfg (K : Type _) where
  /-- `mNetworkSize` -/
  size : Nat
  /-- `mNumLinks` -/
  numLinks : Nat
  nonLinear : Nat → Bool
  /-- `mLinearNetwork` -/
  linear : Bool
  mode : SolverMode
  /-- `mRunMode == PAUSE` -/
  paused : Bool
  /-- `mIslandMode == SOLVE` -/
  islandSolve : Bool
  /-- `mSorActive`, with weight, maximum iterations and tolerance -/
  sor : Option (K × Int × K)
  minorStepLimit : Nat
  decompositionLimit : Nat
  tolerance : K
  worstCaseTiming : Bool
  debugDesiredStep : Int
  slavePot : Nat → K

/-- State of the solver. -/
structure State (σ K : Type _) where
  env : Env σ K
  /-- `mPotentialVector` -/
  pot : Nat → K
  /-- `mMinorPotentialVector` -/
  minorPot : Nat → K
  /-- `mMajorPotentialVector` -/
  majorPot : Nat → K
  /-- `mAdmittanceMatrix` -/
  mat : Mat K
  /-- `mRebuild` -/
  rebuild : Bool
  majorCount : Nat
  minorCount : Nat
  maxMinor : Nat
  /-- `mLastMinorStep` -/
  lastMinor : Nat
  decompCount : Nat
  maxDecomp : Nat
  /-- `mLastDecomposition` -/
  lastDecomp : Nat
  /-- `mConvergenceFailCount` -/
  failCount : Nat
  /-- `mLinkResetStepFailCount` -/
  resetFailCount : Nat
  /-- `mSorLastIteration` -/
  sorLast : Int
  sorFailCount : Nat
  /-- ghost -/
  hist : List (MinorRec K)
  /-- ghost -/
  calls : List Call
  /-- ghost: link state and resulting potentials of each direct (Cholesky) solution -/
  solves : List (Env σ K × (Nat → K))
  /-- ghost: number of decompositions really done in this step -/
  decomps : Nat

/-- How a part of the step ended. -/
inductive Outcome (α : Type _) where
  | ok (a : α)
  /-- `TsNumericalException` -/
  | numeric (a : α)
  /-- a division by zero put infinities or NaN into the matrix -/
  | nan (a : α)
  /-- access out of bounds -/
  | ub (a : α)

variable {σ K : Type _} [Field K] [LinearOrder K]

/-- The list of links as the assembly functions see it. -/
def Env.links (c : Cfg K) (e : Env σ K) : List (LinkView K) := (List.range c.numLinks).map e.views

/-- `Gunns::resetToMinorPotentialVector` and the like: copy of the first `n` terms,
Gunns.cpp:1685-1720. -/
def copyVec (n : Nat) (src dst : Nat → K) : Nat → K := fun i => if i < n then src i else dst i

/-- `Gunns::cleanPotentialVector`, Gunns.cpp:1487-1494. -/
def cleanPot (n : Nat) (p : Vect K) : Vect K :=
  loop (fun i p => if |p i| < dblEps then Vect.set p i 0 else p) n p

/-- Body of the NORMAL mode branch of `Gunns::overridePotential` for one link, Gunns.cpp:1589-1595. -/
def overrideLink (N : Nat) (e : Env σ K) (link : Nat) (p : Nat → K) : Nat → K :=
  loop (fun port p =>
    if e.ovr link port = true ∧ (e.views link).nodeMap port < N then
      Vect.set p ((e.views link).nodeMap port) (e.linkPot link port)
    else p) (e.views link).ports p

/-- `Gunns::overridePotential`, Gunns.cpp:1571-1598. -/
def overridePotential (c : Cfg K) (s : State σ K) : State σ K :=
  match c.mode with
  | .slave => { s with pot := copyVec c.size c.slavePot s.pot,
                       minorPot := copyVec c.size c.slavePot s.minorPot }
  | .normal => { s with pot := loop (overrideLink c.size s.env) c.numLinks s.pot }
  | .dummy => s

/-- `Gunns::outputPotentialVector`, Gunns.cpp:1634-1658.  The loops write each node and port once; they are
written in closed form. -/
def outputPotential (c : Cfg K) (s : State σ K) : State σ K :=
  if c.mode ≠ .dummy then
    { s with env := { s.env with
        nodePot := fun n => if n < c.size then s.pot n else if n = c.size then 0 else s.env.nodePot n
        linkPot := fun l p =>
          if l < c.numLinks ∧ p < (s.env.views l).ports then
            (if (s.env.views l).nodeMap p < c.size then s.pot ((s.env.views l).nodeMap p) else 0)
          else s.env.linkPot l p } }
  else s

/-- `Gunns::checkSystemConvergence`, Gunns.cpp:1148-1166. -/
def checkConvergence (c : Cfg K) (s : State σ K) : Bool :=
  (loop (fun n (last : Int) => if c.tolerance < |s.minorPot n - s.pot n| then (n : Int) else last)
    c.size (-1)) < 0

/-- Loop state of `confirmSolutionAcceptance`: environment, combined result, ghost answers and calls. -/
structure Poll (σ K : Type _) where
  env : Env σ K
  result : SolRes
  answers : List (Nat × SolRes)
  calls : List Call

/-- Combination of one link's answer, Gunns.cpp:1198-1213. -/
def combine (convergedStep : Nat) (result linkResult : SolRes) : SolRes :=
  let linkResult := if convergedStep = 0 ∧ linkResult = .delay then .confirm else linkResult
  if linkResult = .reject then .reject
  else if linkResult = .delay ∧ result ≠ .reject then .delay else result

/-- `Gunns::confirmSolutionAcceptance`, Gunns.cpp:1180-1218. -/
def confirmSolution (M : Methods σ K) (c : Cfg K) (convergedStep absoluteStep : Nat) (e : Env σ K) :
    Poll σ K :=
  loop (fun link p =>
    if c.nonLinear link then
      let r := M.confirm link convergedStep absoluteStep p.env
      { env := r.2, result := combine convergedStep p.result r.1
        answers := p.answers ++ [(link, r.1)]
        calls := p.calls ++ [.poll link convergedStep absoluteStep] }
    else p) c.numLinks ⟨e, .confirm, [], []⟩

/-- `Gunns::resetLinksToMinorStep`, Gunns.cpp:1670-1680. -/
def resetLinks (M : Methods σ K) (c : Cfg K) (convergedStep minorStep : Nat) (s : State σ K) : State σ K :=
  loop (fun link s =>
    if c.nonLinear link then
      let r := M.resetMinor link convergedStep minorStep s.env
      { s with env := r.2, calls := s.calls ++ [.reset link]
               resetFailCount := if r.1 then s.resetFailCount else s.resetFailCount + 1 }
    else s) c.numLinks s

/-- Outcome of `buildAndSolveSystem`. -/
inductive BuildOutcome (σ K : Type _) where
  | ok (s : State σ K)
  /-- `TsOutOfBoundsException`: decomposition limit -/
  | limit (s : State σ K)
  | numeric (s : State σ K)
  | nan (s : State σ K)
  | ub (s : State σ K)

/-- The build part of `buildAndSolveSystem`, Gunns.cpp:963-970: assembled matrix (kept to find the islands
of the same call), `needDecomposition`, state. -/
def buildSystem (c : Cfg K) (s : State σ K) : Bool × State σ K :=
  if s.rebuild = true ∨ c.sor.isSome = true ∨ c.debugDesiredStep ≠ 0 then
    (true, { s with mat := conditionAdmittance c.size (asMat c.size (buildAdmittance c.size (s.env.links c)))
                    rebuild := false })
  else (false, s)

/-- The SOR part of `buildAndSolveSystem`, Gunns.cpp:976-985. -/
def trySor (c : Cfg K) (w : Nat → K) (s : State σ K) : State σ K :=
  let s := { s with sorLast := -1 }
  match c.sor, c.mode with
  | some (wt, maxIter, tol), .normal =>
    let r := sorSolve s.pot s.mat w c.size wt maxIter tol
    if r.1 < 0 then
      { s with sorLast := r.1, pot := copyVec c.size s.minorPot r.2, sorFailCount := s.sorFailCount + 1 }
    else { s with sorLast := r.1, pot := r.2 }
  | _, _ => s

/-- Decomposition of the built matrix in NORMAL mode, Gunns.cpp:1007-1038: by islands (found from the
matrix before conditioning) or as a whole. -/
def factor (c : Cfg K) (s : State σ K) : BuildOutcome σ K :=
  let s := { s with decomps := s.decomps + 1 }
  if c.islandSolve then
    match decomposeIslands c.size (asMat c.size (buildAdmittance c.size (s.env.links c))) s.mat with
    | .ok B => .ok { s with mat := B }
    | .failed _ _ B => .numeric { s with mat := B }
    | .divByZero _ => .nan s
  else
    match decompose s.mat c.size with
    | .ok B => .ok { s with mat := B }
    | .failed _ B => .numeric { s with mat := B }
    | .divByZero _ => .nan s

/-- The final solution in NORMAL mode, Gunns.cpp:1049-1054. -/
def solveSystem (c : Cfg K) (w : Nat → K) (s : State σ K) : BuildOutcome σ K :=
  match c.mode with
  | .normal =>
    match solve s.mat w s.pot c.size with
    | .ok x => .ok { s with pot := cleanPot c.size x, solves := s.solves ++ [(s.env, cleanPot c.size x)] }
    | .failed _ x => .numeric { s with pot := x }
    | .outOfBounds => .ub s
  | _ => .ok s

/-- `Gunns::buildAndSolveSystem`, Gunns.cpp:960-1058. -/
def buildAndSolve (c : Cfg K) (s : State σ K) : BuildOutcome σ K :=
  let w := buildSource c.size (s.env.links c)
  let b := buildSystem c s
  let s := trySor c w b.2
  if s.sorLast < 0 then
    if b.1 = true ∧ c.mode = .normal then
      if s.lastDecomp < c.decompositionLimit then
        match factor c { s with lastDecomp := s.lastDecomp + 1, decompCount := s.decompCount + 1 } with
        | .ok s => solveSystem c w s
        | r => r
      else .limit s
    else solveSystem c w s
  else .ok s

/-- State of the loop of `iterateMinorSteps`. -/
structure Iter (σ K : Type _) where
  s : State σ K
  networkConverged : Bool
  convergedStep : Nat
  result : SolRes

/-- The link loop of a minor step, Gunns.cpp:858-872. -/
def stepLinks (M : Methods σ K) (c : Cfg K) (s : State σ K) : State σ K :=
  loop (fun link s =>
    let s :=
      if s.lastMinor = 1 then { s with env := M.step link s.env, calls := s.calls ++ [.step link] }
      else if c.nonLinear link then
        { s with env := M.minorStep link s.lastMinor s.env, calls := s.calls ++ [.minor link s.lastMinor] }
      else s
    let u := M.needAdmittanceUpdate link s.env
    { s with env := u.2, rebuild := if u.1 then true else s.rebuild }) c.numLinks s

/-- How the body of the minor step loop ended. -/
inductive BodyOutcome (σ K : Type _) where
  | next (it : Iter σ K)
  | brk (it : Iter σ K)
  | numeric (s : State σ K)
  | nan (s : State σ K)
  | ub (s : State σ K)

/-- The count of converged steps when the links are polled, Gunns.cpp:906-908. -/
def countConverged (c : Cfg K) (it : Iter σ K) : Nat :=
  if it.result = .delay ∨ checkConvergence c it.s = true then it.convergedStep + 1 else it.convergedStep

/-- State after the links were polled, with the ghost record of the step. -/
def afterPoll (it : Iter σ K) (convergedStep : Nat) (p : Poll σ K) : State σ K :=
  { it.s with
    env := p.env, calls := it.s.calls ++ p.calls
    hist := it.s.hist ++ [
      { step := it.s.lastMinor, skipped := decide (it.result = .delay), before := it.s.minorPot
        pot := it.s.pot, convergedStep := convergedStep, answers := p.answers, result := p.result }] }

/-- The convergence part of a minor step, Gunns.cpp:904-944. -/
def acceptance (M : Methods σ K) (c : Cfg K) (it : Iter σ K) : BodyOutcome σ K :=
  if c.linear = false ∧ c.mode = .normal then
    let convergedStep := countConverged c it
    let p := confirmSolution M c convergedStep it.s.lastMinor it.s.env
    let s := afterPoll it convergedStep p
    if p.result = .reject then
      let s := outputPotential c { s with pot := copyVec c.size s.minorPot s.pot }
      .next { it with s := resetLinks M c convergedStep s.lastMinor s, convergedStep := 0
                      result := .reject }
    else
      let s := { s with minorPot := copyVec c.size s.pot s.minorPot }
      if p.result = .confirm ∧ 0 < convergedStep then
        let it' : Iter σ K := { s := s, networkConverged := true, convergedStep := convergedStep
                                result := p.result }
        if (c.worstCaseTiming = true ∧ c.decompositionLimit ≤ s.lastDecomp) ∨ c.worstCaseTiming = false
        then .brk it' else .next it'
      else .next { it with s := s, convergedStep := convergedStep, result := p.result }
  else .next it

/-- Body of the minor step loop, Gunns.cpp:845-944. -/
def minorBody (M : Methods σ K) (c : Cfg K) (it : Iter σ K) : BodyOutcome σ K :=
  let s := { it.s with minorCount := it.s.minorCount + 1
                       maxMinor := if it.s.maxMinor < it.s.lastMinor then it.s.lastMinor else it.s.maxMinor }
  if it.result ≠ .delay then
    let s := stepLinks M c s
    let s := { s with rebuild := if c.worstCaseTiming then true else s.rebuild }
    match buildAndSolve c s with
    | .ok s => acceptance M c { it with s := outputPotential c (overridePotential c s) }
    | .limit s => .brk { it with s := s, networkConverged := false }
    | .numeric s => .numeric s
    | .nan s => .nan s
    | .ub s => .ub s
  else acceptance M c { it with s := s }

/-- `for (mLastMinorStep = 1; mLastMinorStep <= minorStepLimit; ++mLastMinorStep)`, Gunns.cpp:842-945;
`fuel` is the number of rounds left. -/
def minorLoop (M : Methods σ K) (c : Cfg K) : Nat → Iter σ K → Outcome (Iter σ K)
  | 0, it => .ok it
  | fuel + 1, it =>
    match minorBody M c it with
    | .next it => minorLoop M c fuel { it with s := { it.s with lastMinor := it.s.lastMinor + 1 } }
    | .brk it => .ok it
    | .numeric s => .numeric { it with s := s }
    | .nan s => .nan { it with s := s }
    | .ub s => .ub { it with s := s }

/-- `minorStepLimit` of `iterateMinorSteps`, Gunns.cpp:830-834. -/
def effectiveLimit (c : Cfg K) : Nat :=
  if c.linear = true ∨ c.mode ≠ .normal then 1 else c.minorStepLimit

/-- `Gunns::iterateMinorSteps`, Gunns.cpp:821-948. -/
def iterateMinorSteps (M : Methods σ K) (c : Cfg K) (s : State σ K) : Outcome (Iter σ K) :=
  minorLoop M c (effectiveLimit c)
    { s := { s with lastDecomp := 0, lastMinor := 1 }
      networkConverged := decide (c.linear = true ∨ c.mode ≠ .normal)
      convergedStep := 0, result := .confirm }

/-- `processInputs` of all links, Gunns.cpp:747-749. -/
def linksInputs (M : Methods σ K) (c : Cfg K) (s : State σ K) : State σ K :=
  loop (fun l s => { s with env := M.processInputs l s.env, calls := s.calls ++ [.inputs l] }) c.numLinks s

/-- `processOutputs` of all links in reverse order, Gunns.cpp:779-781. -/
def linksOutputs (M : Methods σ K) (c : Cfg K) (s : State σ K) : State σ K :=
  loop (fun d s => { s with env := M.processOutputs (c.numLinks - 1 - d) s.env
                            calls := s.calls ++ [.outputs (c.numLinks - 1 - d)] }) c.numLinks s

/-- The part of `step` after the minor steps, Gunns.cpp:768-800. -/
def finishStep (M : Methods σ K) (c : Cfg K) (it : Iter σ K) : State σ K :=
  let s := { it.s with maxDecomp := if it.s.maxDecomp < it.s.lastDecomp then it.s.lastDecomp
                                    else it.s.maxDecomp }
  let s :=
    if it.networkConverged then
      linksOutputs M c { s with env := M.transport s.env, calls := s.calls ++ [.transport] }
    else
      outputPotential c (overridePotential c
        { s with failCount := s.failCount + 1, pot := copyVec c.size s.majorPot s.pot })
  { s with majorPot := copyVec c.size s.pot s.majorPot, rebuild := false }

/-- `Gunns::step` of an initialised network, Gunns.cpp:736-804.  The ghost fields restart with each
step. -/
def step (M : Methods σ K) (c : Cfg K) (s : State σ K) : Outcome (State σ K) :=
  if c.paused then .ok s else
  let s := { s with majorCount := s.majorCount + 1, hist := [], calls := [], solves := []
                    decomps := 0 }
  let s := linksInputs M c s
  let s := { s with env := M.resetFlows s.env }
  match iterateMinorSteps M c s with
  | .ok it => .ok (finishStep M c it)
  | .numeric it => .numeric it.s
  | .nan it => .nan it.s
  | .ub it => .ub it.s

end Gunns
