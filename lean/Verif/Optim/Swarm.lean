import Verif.Base.Const
import Verif.Base.Loop

/-!
# The particle swarm optimizer

`GunnsOptimParticleSwarm` (core/optimization/GunnsOptimParticleSwarm.cpp) and the part of its manager
`GunnsOptimMonteCarlo` that drives it (core/optimization/GunnsOptimMonteCarlo.cpp).

Simplifications: doubles are elements of an ordered field; run numbers, which the code keeps in `int` and
`double`, are integers without overflow; vectors over the inputs and over the particles are functions of
the index, with the loops that change each element from itself alone written pointwise; the random numbers
are arguments; history and state files, console output and `mAcceleration`, which is only printed, are left
out.  The contents of a state file appear as data given to the start-up.
-/

namespace Gunns.Optim

variable {K : Type _} [Field K] [LinearOrder K] [IsStrictOrderedRing K]

/-- `GunnsOptimMonteCarloInput`, GunnsOptimMonteCarloTypes.hh:93-116.  A constraint (:66-86) is the function
    of the model's variables that `evaluate` computes; variables `0, 1, …` are the inputs themselves, at their
    addresses `mAddress`, and further numbers are other variables of the model. -/
structure Input (K : Type _) where
  /-- `mMinimum` -/
  min : K
  /-- `mMaximum` -/
  max : K
  /-- `mConstraints` -/
  cons : List ((Nat → K) → K)

/-- The Monte Carlo inputs, `mInStatesMaster`: their number and their descriptions. -/
structure Inputs (K : Type _) where
  dim : Nat
  at_ : Nat → Input K

/-- `GunnsOptimParticleSwarmConfigData`, GunnsOptimParticleSwarm.hh:79-104. -/
structure Config (K : Type _) where
  /-- `mNumParticles` -/
  n : Nat
  /-- `mMaxEpoch` -/
  maxEpoch : Nat
  /-- `mInertiaWeight` -/
  inertia : K
  /-- `mInertiaWeightEnd` -/
  inertiaEnd : K
  /-- `mCognitiveCoeff` -/
  cog : K
  /-- `mSocialCoeff` -/
  soc : K
  /-- `mMaxVelocity` -/
  maxVel : K

/-- What `operator =` of `GunnsOptimParticleSwarmState` copies, GunnsOptimParticleSwarm.cpp:58-66. -/
structure Point (K : Type _) where
  /-- `mState` -/
  pos : Nat → K
  /-- `mCost` -/
  cost : K
  /-- `mRunId` -/
  runId : Int

/-- `GunnsOptimParticleSwarmParticle`. -/
structure Particle (K : Type _) where
  /-- `mCurrentState` without the velocity -/
  cur : Point K
  /-- `mCurrentState.mVelocity` -/
  vel : Nat → K
  /-- `mBestState` -/
  best : Point K

/-- Attributes of `GunnsOptimParticleSwarm`, with the model variables the manager writes. -/
structure Swarm (K : Type _) where
  /-- `mParticles` -/
  parts : Nat → Particle K
  /-- `mGlobalBestState` -/
  best : Point K
  /-- index of `mActiveParticle` -/
  active : Nat
  /-- `mGlobalRunCounter` -/
  globalRun : Int
  /-- `mRunCounter` -/
  run : Int
  /-- `mEpoch` -/
  epoch : Int
  /-- `mMaxVelocity` -/
  maxV : Nat → K
  /-- the variables of the master's model, at the addresses of the inputs and elsewhere -/
  env : Nat → K

/-- `GunnsOptimBase::validate`, GunnsOptimBase.cpp:62-90 (numbers only), and
    `GunnsOptimParticleSwarm::validate`, GunnsOptimParticleSwarm.cpp:262-299: true when nothing is thrown. -/
def validate (cfg : Config K) (ins : Inputs K) : Bool :=
  !(decide (ins.dim < 1)) &&
  (List.range ins.dim).all (fun j => !(decide ((ins.at_ j).max ≤ (ins.at_ j).min))) &&
  !(decide (cfg.n < 1)) && !(decide (cfg.maxEpoch < 1)) &&
  !(decide (cfg.inertia < dblEps)) && !(decide (cfg.inertiaEnd < dblEps)) &&
  !(decide (cfg.cog < dblEps)) && !(decide (cfg.soc < dblEps)) &&
  !(decide (cfg.maxVel < dblEps)) && !(decide (cfg.maxVel > 1))

/-- `GunnsOptimMonteCarloInput::applyConstraints`, GunnsOptimMonteCarloTypes.hh:104-110: the sum of the
    constraint functions, evaluated on the model variables `env`, replaces the given value. -/
def applyConstraints (env : Nat → K) (inp : Input K) (x : K) : K :=
  if inp.cons = [] then x else inp.cons.foldl (fun out f => out + f env) 0

/-- `GunnsOptimBase::constrainInputs`, GunnsOptimBase.cpp:109-118. -/
def constrainInputs (ins : Inputs K) (env : Nat → K) (x : Nat → K) : Nat → K :=
  fun j => if j < ins.dim then applyConstraints env (ins.at_ j) (x j) else x j

/-- `applyStateConstraints`, GunnsOptimParticleSwarm.cpp:623-629. -/
def applyStateConstraints (cfg : Config K) (ins : Inputs K) (s : Swarm K) : Swarm K :=
  { s with
    parts := fun i =>
      if i < cfg.n then
        { s.parts i with
          cur := { (s.parts i).cur with
                   pos := constrainInputs ins s.env (s.parts i).cur.pos } }
      else s.parts i }

/-- Choice of `mInitDistribution` with what it reads: random numbers or the state file. -/
inductive Start (K : Type _) where
  /-- `RANDOM`, with the random numbers of the positions and of the velocities -/
  | random (x v : Nat → Nat → K)
  /-- `MIN_MAX_CORNERS`, with the random numbers of the velocities -/
  | corners (v : Nat → Nat → K)
  /-- `FILE`, with the rows of the file and the random numbers of the velocities -/
  | file (best : Point K) (rows : Nat → Point K) (v : Nat → Nat → K)
  /-- `FILE_CONTINUOUS`, with the rows of the file -/
  | continuous (best : Point K) (rows : Nat → Particle K)

/-- A constructed point, GunnsOptimParticleSwarm.cpp:29-40, sized by `Particle::initialize`, :74-83. -/
def point0 : Point K := ⟨fun _ => 0, 0, 0⟩

/-- Starting position of one particle, `randomizeSwarmState` :355-364, `minMaxSwarmState` :370-382 and
    `readFileSwarmState` :432-435. -/
def startPoint (cfg : Config K) (ins : Inputs K) : Start K → Nat → Point K
  | .random x _, i =>
      { point0 with
        pos := fun j => (ins.at_ j).min + ((ins.at_ j).max - (ins.at_ j).min) * x i j }
  | .corners _, i =>
      { point0 with
        pos := fun j => if i < cfg.n / 2 then (ins.at_ j).min else (ins.at_ j).max }
  | .file _ rows _, i => { rows i with runId := 0 }
  | .continuous _ rows, i => { (rows i).cur with runId := 0 }

/-- Starting velocity, `randomizeSwarmVelocity` :456-464, or from the file, :437-440. -/
def startVel (maxV : Nat → K) : Start K → Nat → Nat → K
  | .random _ v, i => fun j => maxV j * (1 - 2 * v i j)
  | .corners v, i => fun j => maxV j * (1 - 2 * v i j)
  | .file _ _ v, i => fun j => maxV j * (1 - 2 * v i j)
  | .continuous _ rows, i => (rows i).vel

/-- Starting personal best: nothing at `DBL_MAX`, `initBestCosts` :343-349, or from the file, :441-444. -/
def startBest (dblMax : K) : Start K → Nat → Point K
  | .continuous _ rows, i => { (rows i).best with runId := 0 }
  | _, _ => { point0 with cost := dblMax }

/-- Starting global best, `initBestCosts` :345 and `readFileSwarmState` :424-429. -/
def startGlobal (dblMax : K) : Start K → Point K
  | .random _ _ => { point0 with cost := dblMax }
  | .corners _ => { point0 with cost := dblMax }
  | .file best _ _ => { best with cost := dblMax, runId := 0 }
  | .continuous best _ => { best with runId := 0 }

/-- `initialize`, GunnsOptimParticleSwarm.cpp:184-253, with `initSwarm` :306-337; `none` when it throws.
    `env` holds the model's variables. -/
def init (dblMax : K) (cfg : Config K) (ins : Inputs K) (st : Start K) (env : Nat → K) :
    Option (Swarm K) :=
  if validate cfg ins then
    let maxV := fun j => cfg.maxVel * ((ins.at_ j).max - (ins.at_ j).min)
    some (applyStateConstraints cfg ins
      { parts := fun i => ⟨startPoint cfg ins st i, startVel maxV st i, startBest dblMax st i⟩
        best := startGlobal dblMax st
        active := 0
        globalRun := -1
        run := -1
        epoch := 1
        maxV := maxV
        env := env })
  else none

/-- One round of the loop of `updateBestStates`, GunnsOptimParticleSwarm.cpp:547-560. -/
def bestStep (i : Nat) (s : Swarm K) : Swarm K :=
  let st := (s.parts i).cur
  let g := if st.cost < s.best.cost then st else s.best
  let b := if st.cost < (s.parts i).best.cost then st else (s.parts i).best
  { s with
    best := g
    parts := fun k => if k = i then { s.parts i with best := b } else s.parts k }

/-- `updateBestStates`, GunnsOptimParticleSwarm.cpp:545-561. -/
def updateBest (cfg : Config K) (s : Swarm K) : Swarm K := loop bestStep cfg.n s

/-- Velocity of one coordinate, GunnsOptimParticleSwarm.cpp:591-598. -/
def newVel (cfg : Config K) (w vmax r1 r2 x v pb gb : K) : K :=
  let a := cfg.cog * r1 * (pb - x) + cfg.soc * r2 * (gb - x)
  let v' := w * v + a
  if v' > vmax then vmax else if v' < -vmax then -vmax else v'

/-- Position after the boundary check, GunnsOptimParticleSwarm.cpp:599, 607-613. -/
def newPos (lo hi x v : K) : K :=
  if x + v < lo then lo else if x + v > hi then hi else x + v

/-- Velocity after the boundary check, GunnsOptimParticleSwarm.cpp:607-613. -/
def reflect (lo hi x v : K) : K :=
  if x + v < lo then v * -1 else if x + v > hi then v * -1 else v

/-- Movement of particle `i`, GunnsOptimParticleSwarm.cpp:576-615. -/
def moveParticle (cfg : Config K) (ins : Inputs K) (w : K) (rnd : Nat → Nat → K × K) (s : Swarm K)
    (i : Nat) : Particle K :=
  let p := s.parts i
  let v := fun j => newVel cfg w (s.maxV j) (rnd i j).1 (rnd i j).2 (p.cur.pos j) (p.vel j) (p.best.pos j)
    (s.best.pos j)
  { p with
    cur := { p.cur with
             pos := fun j =>
               if j < ins.dim then newPos (ins.at_ j).min (ins.at_ j).max (p.cur.pos j) (v j)
               else p.cur.pos j }
    vel := fun j =>
      if j < ins.dim then reflect (ins.at_ j).min (ins.at_ j).max (p.cur.pos j) (v j) else p.vel j }

/-- `propagateSwarm`, GunnsOptimParticleSwarm.cpp:572-618; `rnd i j` are the two random numbers drawn for
    coordinate `j` of particle `i`. -/
def propagate (cfg : Config K) (ins : Inputs K) (w : K) (rnd : Nat → Nat → K × K) (s : Swarm K) :
    Swarm K :=
  let s1 := updateBest cfg s
  applyStateConstraints cfg ins
    { s1 with parts := fun i => if i < cfg.n then moveParticle cfg ins w rnd s1 i else s1.parts i }

/-- Inertia weight of an epoch, GunnsOptimParticleSwarm.cpp:486-488. -/
def inertiaAt (cfg : Config K) (epoch : Int) : K :=
  cfg.inertia + (cfg.inertiaEnd - cfg.inertia) * (epoch : K) / ((cfg.maxEpoch : Nat) : K)

/-- `mActiveParticle = &mParticles.at(mRunCounter)` and its run id, GunnsOptimParticleSwarm.cpp:533-534. -/
def activate (s : Swarm K) : Swarm K :=
  { s with
    active := s.run.toNat
    parts := fun k =>
      if k = s.run.toNat then
        { s.parts k with cur := { (s.parts k).cur with runId := s.globalRun } }
      else s.parts k }

/-- `update`, GunnsOptimParticleSwarm.cpp:475-540. -/
def update (cfg : Config K) (ins : Inputs K) (rnd : Nat → Nat → K × K) (s : Swarm K) : Swarm K :=
  let s1 := { s with globalRun := s.globalRun + 1, run := s.run + 1 }
  let s2 :=
    if (cfg.n : Int) ≤ s1.run then
      propagate cfg ins (inertiaAt cfg (s1.epoch + 1)) rnd { s1 with run := 0, epoch := s1.epoch + 1 }
    else s1
  activate s2

/-- `getState`, GunnsOptimParticleSwarm.hh:203-206. -/
def getState (s : Swarm K) : Nat → K := (s.parts s.active).cur.pos

/-- `GunnsOptimMonteCarlo::updateMasterPre`, GunnsOptimMonteCarlo.cpp:122-148: the optimizer is updated and
    the state it offers is loaded into the inputs of the model. -/
def dispatch (cfg : Config K) (ins : Inputs K) (rnd : Nat → Nat → K × K) (s : Swarm K) : Swarm K :=
  let s1 := update cfg ins rnd s
  { s1 with env := fun j => if j < ins.dim then getState s1 j else s1.env j }

/-- `assignCost`, GunnsOptimParticleSwarm.cpp:644-658: the first particle with the returned run id gets the
    cost; `none` when none has it and the code throws. -/
def assignCost (cfg : Config K) (cost : K) (runId : Int) (s : Swarm K) : Option (Swarm K) :=
  match (List.range cfg.n).find? (fun i => decide (runId = (s.parts i).cur.runId)) with
  | some i =>
    some { s with
           parts := fun k =>
             if k = i then { s.parts i with cur := { (s.parts i).cur with cost := cost } }
             else s.parts k }
  | none => none

/-- `getNumRuns`, GunnsOptimParticleSwarm.hh:192-195. -/
def numRuns (cfg : Config K) : Nat := cfg.n * cfg.maxEpoch

/-- What happens to the optimizer: a run is sent out (`updateMasterPre`) or the result of a run comes back
    (`updateMasterPost`, GunnsOptimMonteCarlo.cpp:157-173). -/
inductive Ev (K : Type _) where
  | run (rnd : Nat → Nat → K × K)
  | back (runId : Int) (cost : K)

/-- The optimizer with a record of the states sent out: `sent k` is what run number `k` was given. -/
structure Log (K : Type _) where
  swarm : Swarm K
  runs : Nat
  sent : Nat → Nat → K

/-- One event; `none` when the code throws. -/
def step (cfg : Config K) (ins : Inputs K) (l : Log K) : Ev K → Option (Log K)
  | .run rnd =>
    let s := dispatch cfg ins rnd l.swarm
    some ⟨s, l.runs + 1, fun k => if k = l.runs then getState s else l.sent k⟩
  | .back id cost =>
    match assignCost cfg cost id l.swarm with
    | some s => some { l with swarm := s }
    | none => none

/-- A sequence of events. -/
def exec (cfg : Config K) (ins : Inputs K) (l : Log K) : List (Ev K) → Option (Log K)
  | [] => some l
  | e :: t =>
    match step cfg ins l e with
    | some l' => exec cfg ins l' t
    | none => none

/-- The log of an optimizer that has sent nothing out yet. -/
def Log.fresh (s : Swarm K) : Log K := ⟨s, 0, fun _ _ => 0⟩

end Gunns.Optim
