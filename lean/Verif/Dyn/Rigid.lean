import Verif.Dyn.Utils
import Verif.Solver.Model

/-!
# State derivative of a single rigid body

`aspects/dynamics/GunnsDynSingleRigidStateDeriv.cpp` and `GunnsDynSingleRigidMassProps.cpp`.  The state
derivative is a link with six ports that runs a network solver of its own, in which it is the only
link; the solver is the model of `Gunns::step`.  Pointers to registered force and torque objects are
lists of their values at the time of the call.  Left out: names, messages, the flow bookkeeping of the base
class (it does not feed back), a second call of `initialize`.
-/

namespace Gunns.Dyn

variable {K : Type _} [Field K] [LinearOrder K]

/-- `GunnsDynSingleRigidMassProps`. -/
structure MassProps (K : Type _) where
  mass : K
  cm : Arr K
  ixx : K
  ixy : K
  ixz : K
  iyy : K
  iyz : K
  izz : K

/-- The default constructed mass properties, GunnsDynSingleRigidMassProps.cpp:32-55 with the default
arguments of the header, 54-61. -/
def MassProps.default : MassProps K := ⟨0, zeroV, 0, 0, 0, 0, 0, 0⟩

/-- `operator ==`, GunnsDynSingleRigidMassProps.cpp:108-120. -/
def MassProps.same (p q : MassProps K) : Bool :=
  decide (p.mass = q.mass) && decide (p.cm 0 = q.cm 0) && decide (p.cm 1 = q.cm 1) &&
  decide (p.cm 2 = q.cm 2) && decide (p.ixx = q.ixx) && decide (p.ixy = q.ixy) &&
  decide (p.ixz = q.ixz) && decide (p.iyy = q.iyy) && decide (p.iyz = q.iyz) &&
  decide (p.izz = q.izz)

/-- `validate` throws, GunnsDynSingleRigidMassProps.cpp:128-140. -/
def MassProps.rejected (p : MassProps K) : Bool :=
  decide (p.mass < dblEps) || decide (p.ixx < dblEps) || decide (p.iyy < dblEps) ||
  decide (p.izz < dblEps) || decide (0 < p.ixy) || decide (0 < p.ixz) || decide (0 < p.iyz)

/-- `isCmOffset`, GunnsDynSingleRigidMassProps.hh. -/
def MassProps.isCmOffset (p : MassProps K) : Bool := isNonZeroV3 p.cm

/-- `GunnsDynAppliedForce`. -/
structure Force (K : Type _) where
  active : Bool
  force : Arr K
  location : Arr K

/-- `GunnsDynAppliedTorque`. -/
structure Torque (K : Type _) where
  active : Bool
  torque : Arr K

/-- `sumAppliedForces`, GunnsDynSingleRigidStateDeriv.cpp:260-268. -/
def sumAppliedForces (fs : List (Force K)) : Arr K :=
  fs.foldl (fun acc f => if f.active then addV acc f.force else acc) zeroV

/-- Body of the force loop of `sumAppliedTorques`, 279-291. -/
def forceTorque (p : MassProps K) (f : Force K) : Arr K :=
  let location := if p.isCmOffset then subtractV f.location p.cm else f.location
  crossV3 location f.force

/-- `sumAppliedTorques`, 275-300. -/
def sumAppliedTorques (p : MassProps K) (fs : List (Force K)) (ts : List (Torque K)) : Arr K :=
  let t := fs.foldl (fun acc f => if f.active then addV acc (forceTorque p f) else acc) zeroV
  ts.foldl (fun acc t => if t.active then addV acc t.torque else acc) t

/-- A run of assignments to elements of an array. -/
def store (A : Arr K) (l : List (Nat × K)) : Arr K := l.foldl (fun A e => Vect.set A e.1 e.2) A

/-- The matrix built by `buildAdmittanceMatrix` when the mass properties changed, 153-205. -/
def massMatrix (p : MassProps K) : Arr K :=
  let A := store zeroV [(0, p.mass), (7, p.mass), (14, p.mass),
    (21, p.ixx), (22, p.ixy), (23, p.ixz), (27, p.ixy), (28, p.iyy), (29, p.iyz),
    (33, p.ixz), (34, p.iyz), (35, p.izz)]
  if p.isCmOffset then
    let cmSkew := skew p.cm
    let massCmSkew := scaleV cmSkew p.mass
    let massCmSkew2 := multiplyMM massCmSkew cmSkew 3
    store A [(19, massCmSkew 1), (20, massCmSkew 2), (24, massCmSkew 3), (26, massCmSkew 5),
      (30, massCmSkew 6), (31, massCmSkew 7),
      (4, - massCmSkew 1), (5, - massCmSkew 2), (9, - massCmSkew 3), (11, - massCmSkew 5),
      (15, - massCmSkew 6), (16, - massCmSkew 7),
      (21, A 21 - massCmSkew2 0), (22, A 22 - massCmSkew2 1), (23, A 23 - massCmSkew2 2),
      (27, A 27 - massCmSkew2 3), (28, A 28 - massCmSkew2 4), (29, A 29 - massCmSkew2 5),
      (33, A 33 - massCmSkew2 6), (34, A 34 - massCmSkew2 7), (35, A 35 - massCmSkew2 8)]
  else A

/-- `mAngMomentum` of `buildSourceVector`, 221-229. -/
def angMomentum (p : MassProps K) (w : Arr K) : Arr K :=
  arr [p.ixx * w 0 + p.ixy * w 1 + p.ixz * w 2, p.ixy * w 0 + p.iyy * w 1 + p.iyz * w 2,
    p.ixz * w 0 + p.iyz * w 1 + p.izz * w 2]

/-- `buildSourceVector`, 213-253, with the angular velocity `w`. -/
def rigidSource (p : MassProps K) (w : Arr K) (fs : List (Force K)) (ts : List (Torque K)) : Arr K :=
  let f := sumAppliedForces fs
  let t := sumAppliedTorques p fs ts
  let gyroTorque := crossV3 w (angMomentum p w)
  let s := arr [f 0, f 1, f 2, t 0 - gyroTorque 0, t 1 - gyroTorque 1, t 2 - gyroTorque 2]
  if p.isCmOffset then
    let gyroForce := scaleV (crossV3 w (crossV3 w p.cm)) p.mass
    store s [(0, s 0 - gyroForce 0), (1, s 1 - gyroForce 1), (2, s 2 - gyroForce 2)]
  else s

/-- The link: `mLastMassProps`, and its solver, whose environment holds the link's admittance matrix,
source vector and (as private state) the flag `mAdmittanceUpdate`. -/
structure Deriv (K : Type _) where
  last : MassProps K
  solver : State Bool K
  /-- `mAcceleration` -/
  acc : Arr K
  /-- `mAngAcceleration` -/
  angAcc : Arr K
  /-- `mQdot` -/
  qd : Arr K

/-- What the solver sees of the link: six ports mapped to the six nodes, 81-84.  The map is the one of
`GunnsBasicLink::updateAdmittanceMap`. -/
def rigidView (adm src : Arr K) : LinkView K where
  ports := 6
  nodeMap := fun i => i
  adm := adm
  mapSize := 36
  map := updateAdmittanceMap 6 6 (fun i => i) (fun _ => -1)
  src := src

/-- The virtual functions of the link: those of `GunnsBasicLink`, of which only `needAdmittanceUpdate`
(GunnsBasicLink.cpp:459-464) does anything here. -/
def rigidMethods : Methods Bool K where
  processInputs _ e := e
  resetFlows e := e
  step _ e := e
  minorStep _ _ e := e
  needAdmittanceUpdate _ e := (e.priv, { e with priv := false })
  confirm _ _ _ e := (.confirm, e)
  resetMinor _ _ _ e := (true, e)
  transport e := e
  processOutputs _ e := e

/-- The configuration of the solver, 94-108: `GunnsConfigData(name, 1.0, 1.0, 1, 1)`, SOLVE mode. -/
def rigidCfg : Cfg K where
  size := 6
  numLinks := 1
  nonLinear := fun _ => false
  linear := true
  mode := .normal
  paused := false
  islandSolve := true
  sor := none
  minorStepLimit := 1
  decompositionLimit := 1
  tolerance := 1
  worstCaseTiming := false
  debugDesiredStep := 0
  slavePot := fun _ => 0

/-- The link after `initialize`, 70-112: arrays are zero, the solver asks for nothing. -/
def Deriv.init : Deriv K where
  last := MassProps.default
  solver := {
    env := {
      views := fun _ => rigidView zeroV zeroV
      linkPot := fun _ _ => 0
      ovr := fun _ _ => false
      nodePot := fun _ => 0
      priv := false }
    pot := fun _ => 0
    minorPot := fun _ => 0
    majorPot := fun _ => 0
    mat := fun _ _ => 0
    rebuild := false
    majorCount := 0
    minorCount := 0
    maxMinor := 0
    lastMinor := 0
    decompCount := 0
    maxDecomp := 0
    lastDecomp := 0
    failCount := 0
    resetFailCount := 0
    sorLast := -1
    sorFailCount := 0
    hist := []
    calls := []
    solves := []
    decomps := 0 }
  acc := zeroV
  angAcc := zeroV
  qd := zeroV

/-- `buildAdmittanceMatrix`, 148-207. -/
def Deriv.buildAdmittance (p : MassProps K) (d : Deriv K) : Deriv K :=
  if p.same d.last = false then
    { d with
      last := p
      solver := { d.solver with
        env := { d.solver.env with
          views := fun _ => rigidView (massMatrix p) (d.solver.env.views 0).src
          priv := true } } }
  else d

/-- `buildSourceVector`, 213-253. -/
def Deriv.buildSource (p : MassProps K) (w : Arr K) (fs : List (Force K)) (ts : List (Torque K))
    (d : Deriv K) : Deriv K :=
  { d with
    solver := { d.solver with
      env := { d.solver.env with
        views := fun _ => rigidView (d.solver.env.views 0).adm (rigidSource p w fs ts) } } }

/-- Everything the state derivative reads in a call: mass properties, quaternion, angular velocity,
forces and torques. -/
structure DerivInput (K : Type _) where
  props : MassProps K
  quat : Arr K
  angVel : Arr K
  forces : List (Force K)
  torques : List (Torque K)

/-- How `update` ended. -/
inductive DerivResult (K : Type _) where
  | ok (d : Deriv K)
  /-- `TsOutOfBoundsException` from the validation of the mass properties -/
  | invalid (d : Deriv K)
  /-- `TsNumericalException` from the solver -/
  | numeric (d : Deriv K)
  /-- infinities or NaN in the solver -/
  | nan (d : Deriv K)
  /-- access out of bounds in the solver -/
  | ub (d : Deriv K)

/-- `update`, 125-139. -/
def Deriv.update (i : DerivInput K) (d : Deriv K) : DerivResult K :=
  if i.props.rejected then .invalid d else
  let d := (d.buildAdmittance i.props).buildSource i.props i.angVel i.forces i.torques
  match Gunns.step rigidMethods rigidCfg d.solver with
  | .ok s => .ok {
      last := d.last
      solver := s
      acc := fun k => s.env.linkPot 0 k
      angAcc := fun k => s.env.linkPot 0 (3 + k)
      qd := qdot i.quat i.angVel }
  | .numeric s => .numeric { d with solver := s }
  | .nan s => .nan { d with solver := s }
  | .ub s => .ub { d with solver := s }

end Gunns.Dyn
