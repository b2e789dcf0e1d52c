import Verif.Optim.Swarm
import Verif.Link.Elements

/-!
# The gradient descent optimizer

`GunnsOptimGradientDescent` (core/optimization/GunnsOptimGradientDescent.cpp), driven by
`GunnsOptimMonteCarlo` (core/optimization/GunnsOptimMonteCarlo.cpp).

Simplifications: those of the particle swarm; the run id `-99.99` of a state that has not been run is the
integer `-100`, which like it is no run's number; loops that change each element from itself and from what the
loop does not change are written pointwise; files and printing are left out.
-/

namespace Gunns.Optim.Descent

open Gunns.Elements

variable {K : Type _} [Field K] [LinearOrder K] [IsStrictOrderedRing K]

/-- `GunnsOptimGradientDescentConfigData`, GunnsOptimGradientDescent.hh:62-80. -/
structure Config (K : Type _) where
  /-- `mNumVars` -/
  numVars : Nat
  /-- `mMaxEpoch` -/
  maxEpoch : Nat
  /-- `mPropagationGain` -/
  gain : K
  /-- `mInitialState` -/
  start : Nat → K

/-- `GunnsOptimGradientDescentState`, GunnsOptimGradientDescent.hh:42-57. -/
structure Probe (K : Type _) where
  /-- `mState` -/
  state : Nat → K
  /-- `mDeltaState` -/
  dState : K
  /-- `mCost` -/
  cost : K
  /-- `mDeltaCost` -/
  dCost : K
  /-- `mCostGradient` -/
  grad : K
  /-- `mRunId` -/
  runId : Int

/-- The constructor, GunnsOptimGradientDescent.cpp:30-42. -/
def probe0 : Probe K := ⟨fun _ => 0, 0, 0, 0, 0, -100⟩

/-- Attributes of `GunnsOptimGradientDescent`. -/
structure Desc (K : Type _) where
  /-- `mGradients`; `2 i` and `2 i + 1` are the increase and the decrease of input `i` -/
  probes : Nat → Probe K
  /-- `mState` -/
  glob : Probe K
  /-- `mActiveState`: a gradient or, with `none`, the global state -/
  active : Option Nat
  /-- `mGlobalRunCounter` -/
  globalRun : Int
  /-- `mRunCounter` -/
  run : Int
  /-- `mEpoch` -/
  epoch : Int

/-- `GunnsOptimBase::validate`, GunnsOptimBase.cpp:62-90 (numbers only), and `validate`,
    GunnsOptimGradientDescent.cpp:208-221: true when nothing is thrown. -/
def validate (cfg : Config K) (ins : Inputs K) : Bool :=
  !(decide (ins.dim < 1)) &&
  (List.range ins.dim).all (fun j => !(decide ((ins.at_ j).max ≤ (ins.at_ j).min))) &&
  !(decide (cfg.numVars < 1)) && !(decide (cfg.maxEpoch < 1))

/-- `initState`, GunnsOptimGradientDescent.cpp:226-233. -/
def startState (cfg : Config K) (ins : Inputs K) : Nat → K :=
  fun i => if i < cfg.numVars then limitRange (ins.at_ i).min (cfg.start i) (ins.at_ i).max else 0

/-- `initialize`, GunnsOptimGradientDescent.cpp:148-199; `none` when it throws, which `vector::at` does in
    `initState` if `mNumVars` exceeds the number of inputs. -/
def init (cfg : Config K) (ins : Inputs K) : Option (Desc K) :=
  if validate cfg ins then
    if cfg.numVars ≤ ins.dim then
      some { probes := fun _ => probe0
             glob := { probe0 with state := startState cfg ins }
             active := some 0
             globalRun := -1
             run := -1
             epoch := 1 }
    else none
  else none

/-- Size of the step of a probe, GunnsOptimGradientDescent.cpp:386-396. -/
def probeStep (inp : Input K) (x : K) : K :=
  if 0 = x then 1 / 1000 * (inp.max - inp.min) else 1 / 1000 * |x|

/-- Increased value of an input, GunnsOptimGradientDescent.cpp:391-400. -/
def incTo (inp : Input K) (x : K) : K := limitRange inp.min (x + probeStep inp x) inp.max

/-- Decreased value of an input, GunnsOptimGradientDescent.cpp:402-411. -/
def decTo (inp : Input K) (x : K) : K := limitRange inp.min (x - probeStep inp x) inp.max

/-- Value of the input that probe `p` changes. -/
def probeTo (ins : Inputs K) (x : Nat → K) (p : Nat) : K :=
  if p % 2 = 0 then incTo (ins.at_ (p / 2)) (x (p / 2)) else decTo (ins.at_ (p / 2)) (x (p / 2))

/-- `setGradientStates`, GunnsOptimGradientDescent.cpp:370-432; the assignment of states (:52-58) copies the
    vector only. -/
def setGradientStates (ins : Inputs K) (d : Desc K) : Desc K :=
  { d with
    probes := fun p =>
      if p < 2 * ins.dim then
        { d.probes p with
          state := fun j => if j = p / 2 then probeTo ins d.glob.state p else d.glob.state j
          dState := probeTo ins d.glob.state p - d.glob.state (p / 2) }
      else d.probes p }

/-- The change of input `i`, GunnsOptimGradientDescent.cpp:330-351. -/
def deltaState (d : Desc K) (i : Nat) : K :=
  let inc := d.probes (2 * i)
  let dec := d.probes (2 * i + 1)
  let useInc := decide (inc.dCost < 0) && decide (inc.grad ≠ 0)
  let useDec := decide (dec.dCost < 0) && decide (dec.grad ≠ 0) && decide (dec.dCost < inc.dCost)
  if useDec then -1 * d.glob.cost / dec.grad
  else if useInc then -1 * d.glob.cost / inc.grad
  else 0

/-- `propagateState`, GunnsOptimGradientDescent.cpp:320-363. -/
def propagate (cfg : Config K) (ins : Inputs K) (d : Desc K) : Desc K :=
  { d with
    glob := { d.glob with
              state := fun i =>
                if i < ins.dim then
                  limitRange (ins.at_ i).min
                    (d.glob.state i + deltaState d i * cfg.gain / ((ins.dim : Nat) : K)) (ins.at_ i).max
                else d.glob.state i } }

/-- `mActiveState` and its run id, GunnsOptimGradientDescent.cpp:298-303. -/
def activate (d : Desc K) : Desc K :=
  if 0 = d.run then
    { d with active := none, glob := { d.glob with runId := d.globalRun } }
  else
    { d with
      active := some (d.run - 1).toNat
      probes := fun p =>
        if p = (d.run - 1).toNat then { d.probes p with runId := d.globalRun } else d.probes p }

/-- `update`, GunnsOptimGradientDescent.cpp:256-309. -/
def update (cfg : Config K) (ins : Inputs K) (d : Desc K) : Desc K :=
  let d1 := { d with globalRun := d.globalRun + 1, run := d.run + 1 }
  let d2 :=
    if 1 = d1.run then setGradientStates ins d1
    else if d1.run > ((2 * ins.dim : Nat) : Int) then
      propagate cfg ins { d1 with run := 0, epoch := d1.epoch + 1 }
    else d1
  activate d2

/-- `getState`, GunnsOptimGradientDescent.hh:177-180. -/
def getState (d : Desc K) : Nat → K :=
  match d.active with
  | none => d.glob.state
  | some p => (d.probes p).state

/-- `assignCost`, GunnsOptimGradientDescent.cpp:447-473; `none` when it throws. -/
def assignCost (ins : Inputs K) (cost : K) (runId : Int) (d : Desc K) : Option (Desc K) :=
  match (List.range (2 * ins.dim)).find? (fun p => decide (runId = (d.probes p).runId)) with
  | some p =>
    let dc := cost - d.glob.cost
    let g := if |(d.probes p).dState| > dblEps then dc / (d.probes p).dState else 0
    some { d with
           probes := fun q =>
             if q = p then { d.probes p with dCost := dc, grad := g, cost := cost } else d.probes q }
  | none =>
    if runId = d.glob.runId then some { d with glob := { d.glob with grad := 0, cost := cost } }
    else none

/-- `getNumRuns`, GunnsOptimGradientDescent.hh:166-169. -/
def numRuns (cfg : Config K) : Nat := cfg.maxEpoch * (2 * cfg.numVars + 1)

/-- `updateMasterShutdown`, GunnsOptimMonteCarlo.cpp:212-220, and the row `shutdown` writes to `grad_state.csv`,
    GunnsOptimGradientDescent.cpp:501-525: `Global_cost` and the state. -/
def shutdown (cfg : Config K) (ins : Inputs K) (d : Desc K) : K × (Nat → K) :=
  let d' := update cfg ins d
  (d'.glob.cost, d'.glob.state)

/-- What happens to the optimizer: a run is sent out or the result of a run comes back. -/
inductive Ev (K : Type _) where
  | run
  | back (runId : Int) (cost : K)

/-- The optimizer with a record of the states sent out. -/
structure Log (K : Type _) where
  desc : Desc K
  runs : Nat
  sent : Nat → Nat → K

/-- One event; `none` when the code throws. -/
def step (cfg : Config K) (ins : Inputs K) (l : Log K) : Ev K → Option (Log K)
  | .run =>
    let d := update cfg ins l.desc
    some ⟨d, l.runs + 1, fun k => if k = l.runs then getState d else l.sent k⟩
  | .back id cost =>
    match assignCost ins cost id l.desc with
    | some d => some { l with desc := d }
    | none => none

/-- A sequence of events. -/
def exec (cfg : Config K) (ins : Inputs K) (l : Log K) : List (Ev K) → Option (Log K)
  | [] => some l
  | e :: t =>
    match step cfg ins l e with
    | some l' => exec cfg ins l' t
    | none => none

/-- The log of an optimizer that has sent nothing out yet. -/
def Log.fresh (d : Desc K) : Log K := ⟨d, 0, fun _ _ => 0⟩

end Gunns.Optim.Descent
