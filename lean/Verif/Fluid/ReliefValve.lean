import Verif.Math.Interp

/-!
# Relief and regulator valves

`GunnsFluidPressureSensitiveValve`, `GunnsFluidReliefValve` and `GunnsFluidRegulatorValve` (aspects/fluid/conductor):
the control pressure, the valve state, the position and the effective conductivity.

Simplifications: doubles are elements of an ordered field; the ports, the tuning modes, the transport of fluid and the
heat flux are left out; what `GunnsFluidUtils::predictConductivity` returns for the leak is an input of the step (it is
modelled in Verif/Fluid/Conductivity.lean). The two valves have the same attributes and share one structure. The
coefficients of one curve are grouped: the code has them twice, with `Inc` and `Dec` in the names.
-/

namespace Gunns.FluidValve

open Gunns.Interp (limitRange)

variable {K : Type _} [Field K] [LinearOrder K] [IsStrictOrderedRing K]

/-- `GunnsFluidValve::State`, GunnsFluidValve.hh:108. -/
inductive State
  /-- `CLOSED` -/
  | closed
  /-- `OPENING` -/
  | opening
  /-- `TRANSITIONING` -/
  | transitioning
  /-- `CLOSING` -/
  | closing
  /-- `OPEN` -/
  | full
  deriving DecidableEq

/-- The coefficients of one curve, GunnsFluidReliefValve.hh:168-181. -/
structure Branch (K : Type _) where
  /-- `mPopIncM`, `mPopDecM` -/
  popM : K
  /-- `mPopIncMInv`, `mPopDecMInv` -/
  popMInv : K
  /-- `mPopIncB`, `mPopDecB` -/
  popB : K
  /-- `mPopIncP`, `mPopDecP` -/
  popP : K
  /-- `mNomIncM`, `mNomDecM` -/
  nomM : K
  /-- `mNomIncMInv`, `mNomDecMInv` -/
  nomMInv : K
  /-- `mNomIncB`, `mNomDecB` -/
  nomB : K
  deriving DecidableEq

/-- One half of `derive`, GunnsFluidReliefValve.cpp:338-347 and :350-359, GunnsFluidRegulatorValve.cpp:339-348 and
:351-360, which are the same but for the pressure `start` where the curve starts. -/
def Branch.make (start full pop scale : K) : Branch K :=
  let m := 1 / (full - start)
  let popM := m * scale
  let popMInv := 1 / popM
  let popB := -popM * start
  let popP := (pop - popB) * popMInv
  let nomM := (1 - pop) / (full - popP)
  { popM := popM
    popMInv := popMInv
    popB := popB
    popP := popP
    nomM := nomM
    nomMInv := 1 / nomM
    nomB := 1 - nomM * full }

/-- Attributes of `GunnsFluidPressureSensitiveValve` (GunnsFluidPressureSensitiveValve.hh:130-196) and of
`GunnsFluidReliefValve` (GunnsFluidReliefValve.hh:161-184) or `GunnsFluidRegulatorValve`
(GunnsFluidRegulatorValve.hh:161-184). -/
structure Prv (K : Type _) where
  /-- `mMaxConductivity` -/
  maxCond : K
  /-- `mRateLimit` -/
  rate : K
  /-- `mInletDependencyCoeff0` -/
  inlet0 : K
  /-- `mInletDependencyCoeff1` -/
  inlet1 : K
  /-- `mReseatPressure` -/
  reseat : K
  /-- `mCrackPressure` -/
  crack : K
  /-- `mFullOpenPressure` -/
  fullOpen : K
  /-- `mPopPosition` -/
  pop : K
  /-- `mPopSlopeScale` -/
  scale : K
  /-- the coefficients with `Inc` in their names -/
  inc : Branch K
  /-- the coefficients with `Dec` in their names -/
  dec : Branch K
  /-- `mPosition` -/
  position : K
  /-- `mControlPressure` -/
  control : K
  /-- `mPreviousPressure` -/
  prev : K
  /-- `mState` -/
  state : State
  /-- `mPreviousLeakRate` -/
  prevLeak : K
  /-- `mLeakConductivity` -/
  leakCond : K
  /-- `mEffectiveConductivity` -/
  effCond : K
  deriving DecidableEq

/-- What the user and the network give in one step: the public malfunction terms
(GunnsFluidPressureSensitiveValve.hh:130-137, GunnsFluidLink.hh), the bias of the set point, the potentials of the
ports, the time step and the result of `predictConductivity`. -/
structure In (K : Type _) where
  /-- `mPotentialVector[0]` -/
  p0 : K
  /-- `mPotentialVector[2]` -/
  p2 : K
  /-- `mPotentialVector[3]` -/
  p3 : K
  /-- the time step -/
  dt : K
  /-- `mMalfStuckFlag` -/
  stuck : Bool
  /-- `mMalfFailToFlag` -/
  fail : Bool
  /-- `mMalfFailToValue` -/
  failTo : K
  /-- `mMalfPressureBiasFlag` -/
  bias : Bool
  /-- `mMalfPressureBiasValue` -/
  biasValue : K
  /-- `mSetPointPressureBias` -/
  setBias : K
  /-- `mMalfLeakThruFlag` -/
  leak : Bool
  /-- `mMalfLeakThruValue` -/
  leakRate : K
  /-- what `GunnsFluidUtils::predictConductivity` returns for `mMalfLeakThruValue` -/
  predicted : K
  /-- `mMalfBlockageFlag` -/
  block : Bool
  /-- `mMalfBlockageValue` -/
  blockage : K

/-- The configuration and the position of the input data. -/
structure Config (K : Type _) where
  /-- `mMaxConductivity` -/
  maxCond : K
  /-- `mExpansionScaleFactor` -/
  expansion : K
  /-- `mRateLimit` -/
  rate : K
  /-- `mInletDependencyCoeff0` -/
  inlet0 : K
  /-- `mInletDependencyCoeff1` -/
  inlet1 : K
  /-- `mReseatPressure` -/
  reseat : K
  /-- `mCrackPressure` -/
  crack : K
  /-- `mFullOpenPressure` -/
  fullOpen : K
  /-- `mPopPosition` -/
  pop : K
  /-- `mPopSlopeScale` -/
  scale : K
  /-- `mPosition` of the input data -/
  position : K
  /-- `mMalfLeakThruValue` of the input data -/
  leakRate : K
  /-- `mWallTemperature` of the input data -/
  wallTemp : K
  /-- `mMalfFailToValue` of the input data -/
  failTo : K

/-- `GunnsFluidPressureSensitiveValve::validate`, GunnsFluidPressureSensitiveValve.cpp:300-336: true if nothing is
thrown. -/
def Config.validBase (c : Config K) : Bool :=
  if c.maxCond < 0 then false
  else if ¬(0 ≤ c.expansion ∧ c.expansion ≤ 1) then false
  else if c.rate < 0 then false
  else if ¬(0 ≤ c.position ∧ c.position ≤ 1) then false
  else if c.leakRate < 0 then false
  else if c.wallTemp < 0 then false
  else if ¬(0 ≤ c.failTo ∧ c.failTo ≤ 1) then false
  else true

/-- `GunnsFluidReliefValve::validate`, GunnsFluidReliefValve.cpp:269-297. -/
def Config.validRelief (c : Config K) : Bool :=
  if c.reseat < fltEps then false
  else if -fltEps < c.reseat - c.crack then false
  else if -fltEps < c.crack - c.fullOpen then false
  else if ¬(fltEps ≤ c.pop ∧ c.pop ≤ 1 - fltEps) then false
  else if c.scale < 1 then false
  else true

/-- `GunnsFluidRegulatorValve::validate`, GunnsFluidRegulatorValve.cpp:271-297. -/
def Config.validRegulator (c : Config K) : Bool :=
  if c.fullOpen < fltEps then false
  else if -fltEps < c.fullOpen - c.crack then false
  else if -fltEps < c.crack - c.reseat then false
  else if ¬(fltEps ≤ c.pop ∧ c.pop ≤ 1 - fltEps) then false
  else if c.scale < 1 then false
  else true

/-- The state set at the end of `derive`, GunnsFluidReliefValve.cpp:362-368, GunnsFluidRegulatorValve.cpp:363-369. -/
def startState (position : K) : State :=
  if position ≤ 0 then .closed else if position ≥ 1 then .full else .opening

/-- `initialize` (GunnsFluidPressureSensitiveValve.cpp:246-291, GunnsFluidReliefValve.cpp:225-260) with `derive`
(GunnsFluidReliefValve.cpp:321-372), given the coefficients of the two curves; `mControlPressure` is 0 there. -/
def Config.make (c : Config K) (inc dec : Branch K) : Prv K :=
  { maxCond := c.maxCond
    rate := c.rate
    inlet0 := c.inlet0
    inlet1 := c.inlet1
    reseat := c.reseat
    crack := c.crack
    fullOpen := c.fullOpen
    pop := c.pop
    scale := c.scale
    inc := inc
    dec := dec
    position := c.position
    control := 0
    prev := 0
    state := startState c.position
    prevLeak := 0
    leakCond := 0
    effCond := c.maxCond }

/-- `GunnsFluidReliefValve::initialize`, GunnsFluidReliefValve.cpp:225-260; `none` if it throws. -/
def Config.relief (c : Config K) : Option (Prv K) :=
  if c.validBase then
    if c.validRelief then
      some (c.make (Branch.make c.crack c.fullOpen c.pop c.scale) (Branch.make c.reseat c.fullOpen c.pop c.scale))
    else none
  else none

/-- `GunnsFluidRegulatorValve::initialize`, GunnsFluidRegulatorValve.cpp:227-262; `none` if it throws. -/
def Config.regulator (c : Config K) : Option (Prv K) :=
  if c.validBase then
    if c.validRegulator then
      some (c.make (Branch.make c.reseat c.fullOpen c.pop c.scale) (Branch.make c.crack c.fullOpen c.pop c.scale))
    else none
  else none

/-- The control pressure in `step`, GunnsFluidPressureSensitiveValve.cpp:400-413, with `computeInletDependencyBias`
(GunnsFluidPressureSensitiveValve.hh:287-290). -/
def Prv.controlPressure (s : Prv K) (x : In K) : K :=
  let c := x.p2 - x.p3
  let c := if x.bias then c + x.biasValue else c
  let c := c - x.setBias
  c - (s.inlet0 + s.inlet1 * x.p0)

/-- The pressure where a curve has the position, GunnsFluidReliefValve.cpp:455-461. -/
def Prv.at (s : Prv K) (b : Branch K) : K :=
  if s.position ≤ s.pop then (s.position - b.popB) * b.popMInv else (s.position - b.nomB) * b.nomMInv

/-- First half of `GunnsFluidReliefValve::updateValveState`, GunnsFluidReliefValve.cpp:429-449. -/
def Prv.reliefState1 (s : Prv K) : State :=
  match s.state with
  | .full => if s.control < s.fullOpen then .closing else .full
  | .closed => if s.control > s.crack then .opening else .closed
  | .opening => if s.control > s.fullOpen then .full
      else if s.control < s.prev then .transitioning else .opening
  | .closing => if s.control < s.reseat then .closed
      else if s.control > s.prev then .transitioning else .closing
  | .transitioning => .transitioning

/-- `GunnsFluidReliefValve::updateValveState`, GunnsFluidReliefValve.cpp:426-468. -/
def Prv.reliefState (s : Prv K) : State :=
  if s.reliefState1 = .transitioning then
    if s.control > s.at s.inc then .opening
    else if s.control < s.at s.dec then .closing
    else .transitioning
  else s.reliefState1

/-- First half of `GunnsFluidRegulatorValve::updateValveState`, GunnsFluidRegulatorValve.cpp:430-450. -/
def Prv.regulatorState1 (s : Prv K) : State :=
  match s.state with
  | .full => if s.control > s.fullOpen then .closing else .full
  | .closed => if s.control < s.crack then .opening else .closed
  | .opening => if s.control < s.fullOpen then .full
      else if s.control > s.prev then .transitioning else .opening
  | .closing => if s.control > s.reseat then .closed
      else if s.control < s.prev then .transitioning else .closing
  | .transitioning => .transitioning

/-- `GunnsFluidRegulatorValve::updateValveState`, GunnsFluidRegulatorValve.cpp:427-469. -/
def Prv.regulatorState (s : Prv K) : State :=
  if s.regulatorState1 = .transitioning then
    if s.control > s.at s.inc then .closing
    else if s.control < s.at s.dec then .opening
    else .transitioning
  else s.regulatorState1

/-- The position wanted by `GunnsFluidReliefValve::updatePosition`, GunnsFluidReliefValve.cpp:491-516. -/
def Prv.reliefTarget (s : Prv K) : K :=
  match s.state with
  | .closed => 0
  | .full => 1
  | .opening => if s.control ≤ s.inc.popP then s.inc.popB + s.inc.popM * s.control
      else s.inc.nomB + s.inc.nomM * s.control
  | .closing => if s.control ≤ s.dec.popP then s.dec.popB + s.dec.popM * s.control
      else s.dec.nomB + s.dec.nomM * s.control
  | .transitioning => s.position

/-- The position wanted by `GunnsFluidRegulatorValve::updatePosition`, GunnsFluidRegulatorValve.cpp:492-519. -/
def Prv.regulatorTarget (s : Prv K) : K :=
  match s.state with
  | .closed => 0
  | .full => 1
  | .opening => if s.control ≥ s.dec.popP then s.dec.popB + s.dec.popM * s.control
      else s.dec.nomB + s.dec.nomM * s.control
  | .closing => if s.control ≥ s.inc.popP then s.inc.popB + s.inc.popM * s.control
      else s.inc.nomB + s.inc.nomM * s.control
  | .transitioning => s.position

/-- The rest of `updatePosition`, GunnsFluidReliefValve.cpp:519-529, GunnsFluidRegulatorValve.cpp:522-532. -/
def Prv.move (s : Prv K) (target dt : K) : Prv K :=
  let maxDelta := s.rate * dt
  let position := limitRange (max 0 (s.position - maxDelta)) target (min 1 (s.position + maxDelta))
  let state := if position > 0 ∧ s.state = .closed then .closing
    else if position < 1 ∧ s.state = .full then .opening
    else s.state
  { s with
    position := position
    state := state }

/-- `GunnsFluidPressureSensitiveValve::updateState`, GunnsFluidPressureSensitiveValve.cpp:608-629. -/
def Prv.conduct (s : Prv K) (x : In K) : Prv K :=
  let s := if x.leak then
      if s.prevLeak ≠ x.leakRate then
        { s with
          leakCond := x.predicted
          prevLeak := x.leakRate }
      else s
    else
      { s with
        prevLeak := 0
        leakCond := 0 }
  { s with
    effCond := max (s.maxCond * s.position) s.leakCond }

/-- The position in `updateState`, GunnsFluidReliefValve.cpp:388-394, GunnsFluidRegulatorValve.cpp:389-395. -/
def Prv.place (s : Prv K) (x : In K) (target : K) : Prv K :=
  if x.stuck then s
  else if x.fail then
    { s with
      position := limitRange 0 x.failTo 1 }
  else s.move target x.dt

/-- `GunnsFluidReliefValve::updateState`, GunnsFluidReliefValve.cpp:382-401, on a set control pressure. -/
def Prv.reliefUpdate (s : Prv K) (x : In K) : Prv K :=
  let s := { s with
    state := s.reliefState }
  let s := s.place x s.reliefTarget
  let s := { s with
    prev := s.control }
  s.conduct x

/-- `GunnsFluidRegulatorValve::updateState`, GunnsFluidRegulatorValve.cpp:383-402. -/
def Prv.regulatorUpdate (s : Prv K) (x : In K) : Prv K :=
  let s := { s with
    state := s.regulatorState }
  let s := s.place x s.regulatorTarget
  let s := { s with
    prev := s.control }
  s.conduct x

/-- The blockage in `step`, GunnsFluidPressureSensitiveValve.cpp:451-453. -/
def Prv.blocked (s : Prv K) (x : In K) : Prv K :=
  if x.block then
    { s with
      effCond := s.effCond * (1 - x.blockage) }
  else s

/-- `step` of a relief valve up to its effective conductivity, GunnsFluidPressureSensitiveValve.cpp:394-453. -/
def Prv.reliefStep (s : Prv K) (x : In K) : Prv K :=
  let s := { s with
    control := s.controlPressure x }
  (s.reliefUpdate x).blocked x

/-- `step` of a regulator valve up to its effective conductivity, GunnsFluidPressureSensitiveValve.cpp:394-453. -/
def Prv.regulatorStep (s : Prv K) (x : In K) : Prv K :=
  let s := { s with
    control := s.controlPressure x }
  (s.regulatorUpdate x).blocked x

end Gunns.FluidValve
