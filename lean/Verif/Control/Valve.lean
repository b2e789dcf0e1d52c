import Verif.Link.Elements
import Verif.Base.Const

/-!
# The valve controllers

`TsValveController` and its family (gunns-ts-models/common/controllers/fluid/): the plain controller, the
powered one, the open/close, speed, position and toggle controllers built on the powered one, the
T-valve and the dual solenoid valve.

Simplifications: doubles are elements of an ordered field, so there is no rounding, no overflow and no
NaN; the names and their checks, the `mInitialized` flags, the messages, the copy constructors and the
`TsOpenCloseValveCmd` wrappers around plain flags are left out.
-/

namespace Gunns.Valve

open Gunns.Elements

variable {K : Type _} [Field K] [LinearOrder K] [IsStrictOrderedRing K]

/-- How `initialize` ends. -/
inductive Start (α : Type _) where
  /-- `TsInitializationException` -/
  | refused
  /-- a scale factor is divided by zero, so it is infinite or not a number -/
  | notFinite
  /-- the controller is ready -/
  | ok (v : α)
  deriving DecidableEq

/-- `TsValveControllerConfigData`, TsValveController.hh. -/
structure Config (K : Type _) where
  /-- `mMinCmdPosition` -/
  minPos : K
  /-- `mMaxCmdPosition` -/
  maxPos : K
  /-- `mMinFluidPosition` -/
  minFluid : K
  /-- `mMaxFluidPosition` -/
  maxFluid : K

/-- `TsValveControllerInputData`, TsValveController.hh. -/
structure Input (K : Type _) where
  /-- `mCmdPosition` -/
  pos : K
  /-- `mManualPositionFlag` -/
  manual : Bool
  /-- `mManualPositionValue` -/
  manualVal : K

/-- Attributes of `TsValveController`, TsValveController.hh. -/
structure Base (K : Type _) where
  /-- `mMalfValveStuckFlag` -/
  stuck : Bool
  /-- `mMalfValveFailToFlag` -/
  failTo : Bool
  /-- `mMalfValveFailToValue` -/
  failVal : K
  /-- `mMalfManualFlag` -/
  malfManual : Bool
  /-- `mMinCmdPosition` -/
  minPos : K
  /-- `mMaxCmdPosition` -/
  maxPos : K
  /-- `mFluidBias` -/
  bias : K
  /-- `mFluidScale` -/
  scale : K
  /-- `mCmdPosition` -/
  pos : K
  /-- `mManualPositionFlag` -/
  manual : Bool
  /-- `mManualPositionValue` -/
  manualVal : K
  /-- `mStuckFlag` -/
  stuckFlag : Bool
  /-- `mLowerLimitFlag` -/
  lower : Bool
  /-- `mUpperLimitFlag` -/
  upper : Bool
  /-- `mFluidPosition` -/
  fluid : K
  deriving DecidableEq

/-- The position picked by the first block of `TsValveController::updatePosition`,
TsValveController.cpp:273-284. -/
def pick (v : Base K) (position : K) : K :=
  if v.stuck = false then
    if v.failTo = true then v.failVal
    else if v.manual = true ∧ v.malfManual = false then v.manualVal
    else position
  else v.pos

/-- `TsValveController::updatePosition`, TsValveController.cpp:270-297. -/
def updatePosition (v : Base K) (position : K) : Base K :=
  let p := pick v position
  let q := limitRange v.minPos p v.maxPos
  { v with
    stuckFlag := v.stuck || v.failTo
    lower := decide (p ≤ v.minPos)
    upper := decide (v.maxPos ≤ p)
    pos := q
    fluid := limitRange 0 (v.bias + v.scale * q) 1 }

/-- `TsValveController::update`, TsValveController.cpp:260-263. -/
def update (v : Base K) : Base K := updatePosition v v.pos

/-- `TsValveController::setManualPosition`, TsValveController.hh:266-270. -/
def setManual (v : Base K) (flag : Bool) (value : K) : Base K :=
  { v with
    manual := flag
    manualVal := value }

/-- `MsMath::isInRange`, ms-utils/math/MsMath.hh:477-480. -/
def inRange (lower x upper : K) : Bool := decide (lower ≤ x ∧ x ≤ upper)

/-- `TsValveController::initialize` with `validate`, TsValveController.cpp:188-249. The division at 204
is by zero when the two ends are equal, which `validate` lets pass. -/
def init (c : Config K) (i : Input K) : Start (Base K) :=
  if c.maxFluid ≤ c.minFluid then .refused
  else if inRange c.minPos i.pos c.maxPos = false then .refused
  else if i.manual = true ∧ inRange c.minPos i.manualVal c.maxPos = false then .refused
  else if c.maxPos - c.minPos = 0 then .notFinite
  else
    let scale := (c.maxFluid - c.minFluid) / (c.maxPos - c.minPos)
    .ok (update
      { stuck := false
        failTo := false
        failVal := 0
        malfManual := false
        minPos := c.minPos
        maxPos := c.maxPos
        bias := c.maxFluid - scale * c.maxPos
        scale := scale
        pos := i.pos
        manual := i.manual
        manualVal := i.manualVal
        stuckFlag := false
        lower := false
        upper := false
        fluid := 0 })

/-- `TsPoweredValveController::LatchType`, TsPoweredValveController.hh. -/
inductive Latch where
  | normallyClosed
  | normallyOpen
  | latching
  deriving DecidableEq

/-- `TsPoweredValveControllerConfigData`, TsPoweredValveController.hh. -/
structure PConfig (K : Type _) where
  /-- the part of `TsValveControllerConfigData` -/
  base : Config K
  /-- `mTransitTime`, s -/
  transit : K
  /-- `mRefCmd` -/
  refCmd : K
  /-- `mRefVoltage`, V -/
  refVoltage : K
  /-- `mHoldPower`, W -/
  holdPower : K
  /-- `mMovePower`, W -/
  movePower : K
  /-- `mStuckPower`, W -/
  stuckPower : K
  /-- `mEotInterrupt` -/
  eot : Bool
  /-- `mLatch` -/
  latch : Latch

/-- `TsPoweredValveControllerInputData`, TsPoweredValveController.hh. -/
structure PInput (K : Type _) where
  /-- the part of `TsValveControllerInputData` -/
  base : Input K
  /-- `mSupplyVoltageFlag` -/
  supply : Bool
  /-- `mEnabledFlag` -/
  enabled : Bool
  /-- `mCmd` -/
  cmd : K

/-- Attributes of `TsPoweredValveController`, TsPoweredValveController.hh. -/
structure Powered (K : Type _) where
  /-- the part of `TsValveController` -/
  base : Base K
  /-- `mMalfPowerGoodFlag` -/
  powerGood : Bool
  /-- `mMalfPowerFailFlag` -/
  powerFail : Bool
  /-- `mMalfDriveStuckFlag` -/
  driveStuck : Bool
  /-- `mMalfDriveFailToFlag` -/
  driveFailTo : Bool
  /-- `mMalfDriveFailToValue` -/
  driveFailVal : K
  /-- `mCmdScale`, 1/s -/
  cmdScale : K
  /-- `mHoldPower`, W -/
  holdPower : K
  /-- `mMovePower`, W -/
  movePower : K
  /-- `mStuckPower`, W -/
  stuckPower : K
  /-- `mHoldResistance`, ohm -/
  holdRes : K
  /-- `mMoveResistance`, ohm -/
  moveRes : K
  /-- `mStuckResistance`, ohm -/
  stuckRes : K
  /-- `mEotInterrupt` -/
  eot : Bool
  /-- `mLatch` -/
  latch : Latch
  /-- `mSupplyVoltageFlag` -/
  supply : Bool
  /-- `mEnabledFlag` -/
  enabled : Bool
  /-- `mCmd` -/
  cmd : K
  /-- `mPower`, W -/
  power : K
  /-- `mResistance`, ohm -/
  resistance : K
  deriving DecidableEq

/-- `TsPoweredValveController::MAX_RESISTANCE`, TsPoweredValveController.cpp:19. -/
def maxResistance : K := 1000000

/-- `TsPoweredValveController::updatePower`, TsPoweredValveController.cpp:380-408. -/
def updatePower (v : Powered K) : Powered K :=
  if (v.supply = true ∨ v.powerGood = true) ∧ v.powerFail = false ∧ v.enabled = true then
    if |v.cmd| > dblEps ∧ (v.base.manual = false ∨ v.base.malfManual = true) then
      if v.base.stuck = true ∨ v.driveStuck = true
          ∨ (v.base.pos ≤ v.base.minPos
              ∧ ((v.cmd < 0 ∧ v.cmdScale > 0) ∨ (v.cmd > 0 ∧ v.cmdScale < 0)))
          ∨ (v.base.pos ≥ v.base.maxPos
              ∧ ((v.cmd > 0 ∧ v.cmdScale > 0) ∨ (v.cmd < 0 ∧ v.cmdScale < 0))) then
        { v with
          power := v.stuckPower
          resistance := v.stuckRes }
      else
        { v with
          power := v.movePower
          resistance := v.moveRes }
    else
      { v with
        power := v.holdPower
        resistance := v.holdRes }
  else
    { v with
      power := 0
      resistance := maxResistance }

/-- The position found by `TsPoweredValveController::update`, TsPoweredValveController.cpp:340-365. -/
def drivePosition (v : Powered K) (dt : K) : K :=
  if v.driveStuck = false then
    if v.driveFailTo = true then v.driveFailVal
    else if ¬ (v.supply = true ∨ v.powerGood = true) ∨ v.powerFail = true ∨ v.enabled = false then
      match v.latch with
      | .normallyClosed => v.base.minPos
      | .normallyOpen => v.base.maxPos
      | .latching => v.base.pos
    else if v.enabled = true then v.base.pos + v.cmd * v.cmdScale * dt
    else v.base.pos
  else v.base.pos

/-- `TsPoweredValveController::update(dt)`, TsPoweredValveController.cpp:337-372. -/
def updatePowered (v : Powered K) (dt : K) : Powered K :=
  let position := drivePosition v dt
  let w := updatePower v
  { w with
    base := updatePosition w.base position }

/-- `TsPoweredValveController::update(supplyVoltageFlag, enabledFlag, cmd, dt)`,
TsPoweredValveController.cpp:322-328. -/
def command (v : Powered K) (supply enabled : Bool) (cmd dt : K) : Powered K :=
  updatePowered
    { v with
      supply := supply
      enabled := enabled
      cmd := cmd } dt

/-- `TsPoweredValveController::initialize` with `validate`, TsPoweredValveController.cpp:234-310. -/
def initPowered (c : PConfig K) (i : PInput K) : Start (Powered K) :=
  match init c.base i.base with
  | .refused => .refused
  | .notFinite => .notFinite
  | .ok b =>
    if c.transit < dblEps then .refused
    else if inRange (-dblEps) c.refCmd dblEps = true then .refused
    else if c.holdPower < dblEps then .refused
    else if c.stuckPower < dblEps then .refused
    else if c.movePower < dblEps then .refused
    else
      let vSq := c.refVoltage * c.refVoltage
      .ok (updatePowered
        { base := b
          powerGood := false
          powerFail := false
          driveStuck := false
          driveFailTo := false
          driveFailVal := 0
          cmdScale := (b.maxPos - b.minPos) / (c.refCmd * c.transit)
          holdPower := c.holdPower
          movePower := c.movePower
          stuckPower := c.stuckPower
          holdRes := vSq / c.holdPower
          moveRes := vSq / c.movePower
          stuckRes := vSq / c.stuckPower
          eot := c.eot
          latch := c.latch
          supply := i.supply
          enabled := i.enabled
          cmd := i.cmd
          power := 0
          resistance := 0 } 0)

/-- `TsOpenCloseValveCmd`: `mEnable`, `mOpen`, `mClose`. -/
structure OpenClose where
  /-- `mEnable` -/
  enable : Bool
  /-- `mOpen` -/
  opn : Bool
  /-- `mClose` -/
  cls : Bool

/-- `TsOpenCloseValveSensed`: the end of travel switches `mOpen` and `mClose`. -/
structure Sensed where
  /-- `mOpen` -/
  opn : Bool
  /-- `mClose` -/
  cls : Bool

/-- The command found by `TsOpenCloseValveController::update` without end of travel interruption,
TsOpenCloseValveController.cpp:105-118. `handle` is the handle position when the handle is unstowed. -/
def openCloseCmd (c : OpenClose) (handle : Option K) : K :=
  match handle with
  | some h => if h > fltEps then 1 else -1
  | none =>
    if c.opn = true ∧ c.cls = false then 1
    else if c.opn = false ∧ c.cls = true then -1
    else 0

/-- The command found by `TsOpenCloseValveController::update` with end of travel interruption,
TsOpenCloseValveController.cpp:139-144. -/
def openCloseEotCmd (c : OpenClose) (s : Sensed) : K :=
  if c.opn = true ∧ c.cls = false ∧ s.opn = false then 1
  else if c.opn = false ∧ c.cls = true ∧ s.cls = false then -1
  else 0

/-- `TsOpenCloseValveController::update(dt)`, TsOpenCloseValveController.cpp:83-147. -/
def updateOpenClose (v : Powered K) (c : OpenClose) (s : Sensed) (handle : Option K) (dt : K) :
    Powered K :=
  if v.eot = true then command v v.supply c.enable (openCloseEotCmd c s) dt
  else command v v.supply c.enable (openCloseCmd c handle) dt

/-- The command found by `TsSpeedValveController::update` with end of travel interruption,
TsSpeedValveController.cpp:122-129. -/
def speedEotCmd (cmdScale speed : K) (s : Sensed) : K :=
  if speed > 0 ∧ ((s.opn = true ∧ cmdScale > 0) ∨ (s.cls = true ∧ cmdScale < 0)) then 0
  else if speed < 0 ∧ ((s.opn = true ∧ cmdScale < 0) ∨ (s.cls = true ∧ cmdScale > 0)) then 0
  else speed

/-- `TsSpeedValveController::update(dt)`, TsSpeedValveController.cpp:81-132. -/
def updateSpeed (v : Powered K) (enable : Bool) (speed : K) (s : Sensed) (dt : K) : Powered K :=
  if v.eot = true then command v v.supply enable (speedEotCmd v.cmdScale speed s) dt
  else command v v.supply enable speed dt

/-- The command found by `TsPositionValveController::update`, TsPositionValveController.cpp:190-196. The
divisor is not zero: `dt > DBL_EPSILON` and the scale of a started controller is not zero. -/
def positionCmd (tolerance cmdScale target sensed dt : K) : K :=
  if |target - sensed| < tolerance then 0
  else if dt > dblEps then
    limitRange (-(dt * cmdScale)) (target - sensed) (dt * cmdScale) / (dt * cmdScale)
  else 0

/-- `TsPositionValveController::update(dt)`, TsPositionValveController.cpp:170-199. -/
def updateTarget (v : Powered K) (tolerance : K) (enable : Bool) (target sensed dt : K) : Powered K :=
  command v v.supply enable (positionCmd tolerance v.cmdScale target sensed dt) dt

/-- Attributes of `TsToggleValveCmd` apart from the queues, TsToggleValveCmd.hh. -/
structure Toggle where
  /-- `mEnable` -/
  enable : Bool
  /-- `mToggle` -/
  toggle : Bool
  /-- `mArmed` -/
  armed : Bool
  /-- `mToggleCount` -/
  count : Nat
  deriving DecidableEq

/-- `TsToggleValveCmd::update` without queues, TsToggleValveCmd.cpp:50, 85-96. -/
def Toggle.update (t : Toggle) (dt : K) : Toggle :=
  if dt > dblEps then
    let u : Toggle :=
      if t.armed = true ∧ t.toggle = true ∧ t.enable = true then
        { t with
          armed := false }
      else if t.armed = false ∧ t.toggle = false ∧ t.enable = true then
        { t with
          armed := true }
      else
        { t with
          toggle := false }
    if u.toggle = true then
      { u with
        count := u.count + 1 }
    else u
  else t

/-- The loop over the toggle queue, TsToggleValveCmd.cpp:53-63; `none` is a read past the end of the
enable queue. The state is `mArmed` and the toggle count. The enable queue is only read when the toggle
entry equals `mArmed`: otherwise the two conditions are settled without it. -/
def queueLoop : List Bool → List Bool → Bool → Nat → Option (Bool × Nat)
  | [], _, armed, n => some (armed, n)
  | t :: ts, [], armed, n => if armed = t then none else queueLoop ts [] armed n
  | t :: ts, e :: es, armed, n =>
    if armed = true ∧ t = true ∧ e = true then queueLoop ts es false (n + 1)
    else if armed = false ∧ t = false ∧ e = true then queueLoop ts es true n
    else queueLoop ts es armed n

/-- `TsToggleValveCmd::update` with a queue of toggles, TsToggleValveCmd.cpp:50-83. An empty enable queue
makes the ratio not a number and the comparison false, as here. -/
def Toggle.updateQueue (t : Toggle) (toggles enables : List Bool) (dt : K) : Option Toggle :=
  if dt > dblEps then
    if 0 < toggles.length then
      match queueLoop toggles enables t.armed 0 with
      | none => none
      | some (armed, n) =>
        some
          { enable :=
              if n % 2 = 1 then true
              else decide ((49 / 100 : K) ≤ (enables.countP (· = true) : K) / (enables.length : K))
            toggle := decide (n % 2 = 1)
            armed := armed
            count := t.count + n }
    else some (t.update dt)
  else some t

/-- The command found by `TsToggleValveController::updateWithoutEotInterrupt`,
TsToggleValveController.cpp:103-110. `mMidPosition` is half the sum of the ends
(TsToggleValveController.cpp:60). -/
def toggleCmd (b : Base K) (toggle : Bool) (dt : K) : K :=
  if toggle = true ∧ dt > dblEps then
    if b.pos < (1 / 2) * (b.minPos + b.maxPos) then (b.maxPos - b.minPos) / dt
    else (b.minPos - b.maxPos) / dt
  else 0

/-- The command found by `TsToggleValveController::updateWithEotInterrupt`,
TsToggleValveController.cpp:125-132. -/
def toggleEotCmd (b : Base K) (toggle : Bool) (s : Sensed) (dt : K) : K :=
  if toggle = true ∧ dt > dblEps then
    if b.pos < (1 / 2) * (b.minPos + b.maxPos) ∧ s.opn = false then (b.maxPos - b.minPos) / dt
    else if b.pos ≥ (1 / 2) * (b.minPos + b.maxPos) ∧ s.cls = false then
      (b.minPos - b.maxPos) / dt
    else 0
  else 0

/-- `TsToggleValveController::update`, TsToggleValveController.cpp:82-135, without queues. -/
def updateToggle (v : Powered K) (t : Toggle) (s : Sensed) (dt : K) : Powered K × Toggle :=
  let u := t.update dt
  (if v.eot = true then command v v.supply u.enable (toggleEotCmd v.base u.toggle s dt) dt
   else command v v.supply u.enable (toggleCmd v.base u.toggle dt) dt, u)

/-- `TsTValveController::Position`, TsTValveController.hh; `other` is any value outside the
enumeration. -/
inductive TPos where
  | none
  | aPath
  | bPath
  | other
  deriving DecidableEq

/-- `TsTValveController::update`, TsTValveController.cpp:166-193, on its two valves. -/
def updateT (p : TPos) (a b : Base K) : Base K × Base K :=
  match p with
  | .none => (update (setManual a true a.minPos), update (setManual b true b.minPos))
  | .aPath => (update (setManual a true a.maxPos), update (setManual b true b.minPos))
  | .bPath => (update (setManual a true a.minPos), update (setManual b true b.maxPos))
  | .other => (update a, update b)

/-- Attributes of `TsDualSolenoidValveController`, TsDualSolenoidValveController.hh. -/
structure Dual (K : Type _) where
  /-- the part of `TsValveController` -/
  base : Base K
  /-- `mLatch` -/
  latch : Latch
  /-- `mOpenSolenoidCmd` -/
  openCmd : Bool
  /-- `mCloseSolenoidCmd` -/
  closeCmd : Bool
  /-- `mMidCmdPosition` -/
  mid : K
  /-- `mOpenSolenoidLoad` is `LoadON` -/
  openLoad : Bool
  /-- `mCloseSolenoidLoad` is `LoadON` -/
  closeLoad : Bool
  /-- `mMalfOpenSolenoidFail` -/
  openFail : Bool
  /-- `mMalfCloseSolenoidFail` -/
  closeFail : Bool
  deriving DecidableEq

/-- `TsDualSolenoidValveController::calculateSolenoidLoad`,
TsDualSolenoidValveController.cpp:258-266. -/
def solenoidLoad (cmd malf : Bool) : Bool := if cmd = true ∧ malf = false then true else false

/-- `TsDualSolenoidValveController::update`, TsDualSolenoidValveController.cpp:222-248. -/
def updateDual (v : Dual K) : Dual K :=
  let o := solenoidLoad v.openCmd v.openFail
  let c := solenoidLoad v.closeCmd v.closeFail
  let position :=
    if c = false ∧ o = true then v.base.maxPos
    else if o = false ∧ c = true then v.base.minPos
    else if v.latch = .normallyOpen then v.base.maxPos
    else if v.latch = .normallyClosed then v.base.minPos
    else if v.base.pos ≥ v.mid then v.base.maxPos
    else v.base.minPos
  { v with
    openLoad := o
    closeLoad := c
    base := updatePosition v.base position }

/-- `TsDualSolenoidValveController::initialize` with `validate`,
TsDualSolenoidValveController.cpp:174-215. -/
def initDual (c : Config K) (latch : Latch) (i : Input K) (openCmd closeCmd : Bool) :
    Start (Dual K) :=
  match init c i with
  | .refused => .refused
  | .notFinite => .notFinite
  | .ok b =>
    if openCmd = true ∧ closeCmd = true then .refused
    else
      .ok
        { base := b
          latch := latch
          openCmd := openCmd
          closeCmd := closeCmd
          mid := (1 / 2) * (b.maxPos + b.minPos)
          openLoad := false
          closeLoad := false
          openFail := false
          closeFail := false }

end Gunns.Valve
