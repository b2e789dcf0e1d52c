import Mathlib.Algebra.Order.Floor.Ring
import Verif.Base.Const
import Verif.Math.Interp

/-!
# The pump motor controller

`gunns-ts-models/common/controllers/fluid/TsPumpMotorController`.  Doubles are an ordered field with a floor; the sine and the circle are the parameters `sin` and
`turn`.  Of the motor the resistance and the waste heat after its step are inputs of a pass.
-/

namespace Gunns.PumpMotor

open Gunns.Interp (limitRange)

variable {K : Type*} [Field K] [LinearOrder K] [IsStrictOrderedRing K] [FloorRing K]

/-- The configuration, TsPumpMotorController.cpp:300-310. -/
structure Config (K : Type*) where
  /-- `mForcingGain` -/
  force : K
  /-- `mDampingGain` -/
  damp : K
  /-- `mDampingCutoff` -/
  cutoff : K
  /-- `mTemperatureTripLimit` -/
  hot : K
  /-- `mTemperatureTripReset` -/
  cool : K
  /-- `mMinVoltage` -/
  minV : K
  /-- `mMaxVoltage` -/
  maxV : K
  /-- `mControllerPowerLoad` -/
  load : K
  /-- `mNoiseAmplitude` -/
  amp : K
  /-- `mNoiseFrequency` -/
  freq : K
  /-- `mStartupCurrentLimit` -/
  limit : K

/-- What a pass finds. -/
structure Input (K : Type*) where
  /-- `mVoltage` -/
  voltage : K
  /-- `mSensedSpeed` -/
  speed : K
  /-- `mSensedTemperature` -/
  temp : K
  /-- `mCommandEnable` -/
  enable : Bool
  /-- `mCommandSpeed` -/
  command : K
  /-- `mMalfFailPower` -/
  failPower : Bool
  /-- `mMalfPowerOverrideFlag` with its value -/
  override : Option K
  /-- `mMalfCommandSpeedFlag` with its value -/
  malfSpeed : Option K
  /-- the time step -/
  dt : K
  /-- `mMotor.getResistance()` -/
  motorR : K
  /-- `mMotor.getWasteHeat()` -/
  motorHeat : K

/-- The state. -/
structure State (K : Type*) where
  /-- `mPulseWidth` -/
  pulse : K
  /-- `mSpeedError` -/
  err : K
  /-- `mTrippedTemperature` -/
  tripped : Bool
  /-- `mControllerPowerBus` -/
  ctl : Bool
  /-- `mMotorPowerBus` -/
  motor : Bool
  /-- `mStartupState` -/
  startup : Bool
  /-- `mNoisePhase` -/
  phase : K
  /-- the voltage set on the motor -/
  motorV : K
  /-- the current limit set on the motor -/
  motorLimit : K
  /-- `mTotalResistiveLoad` -/
  resist : K
  /-- `mTotalWasteHeat` -/
  heat : K
  /-- `mTotalCurrent` -/
  current : K

/-- `MsMath::isInRange`, ms-utils/math/MsMath.hh:477-480. -/
def inRange (lo x hi : K) : Bool := decide (lo ≤ x) && decide (x ≤ hi)

/-- `fmod` of the C library: the remainder of the quotient towards zero. -/
def fmod (x y : K) : K := x - y * (if 0 ≤ x / y then (⌊x / y⌋ : K) else (⌈x / y⌉ : K))

/-- `determinePower` with `checkTrips`, TsPumpMotorController.cpp:474-507. -/
def power (c : Config K) (i : Input K) (s : State K) : State K :=
  let bus := inRange c.minV (i.override.getD i.voltage) c.maxV && !i.failPower
  let trip := if bus then (decide (i.temp > c.hot) || s.tripped) && !decide (i.temp < c.cool) else false
  { s with
    ctl := bus
    tripped := trip
    motor := bus && i.enable && !trip }

/-- The noise, TsPumpMotorController.cpp:530-534. -/
def noise (turn : K) (c : Config K) (i : Input K) (phase : K) : K :=
  let p := fmod (phase + turn * c.freq * i.dt) turn
  if p < 0 then p + turn else p

/-- `updateControlFilter`, TsPumpMotorController.cpp:517-565. -/
def filter (sin : K → K) (turn : K) (c : Config K) (i : Input K) (s : State K) : State K :=
  let cmd := i.malfSpeed.getD i.command
  if s.motor && decide (fltEps < cmd) then
    let ph := noise turn c i s.phase
    let noisy := cmd + c.amp * sin ph
    let err := if noisy > fltEps then (noisy - i.speed) / noisy else -1
    let d := -s.err + err
    let w := s.pulse + err * c.force
    let w := if |err| > c.cutoff then w + c.damp * d / max |err| (1 / 10000) else w
    { s with
      phase := ph
      err := err
      startup := if |err| > c.cutoff then s.startup else false
      pulse := limitRange 0 w 1 }
  else { s with
    pulse := 0
    err := 0
    startup := true }

/-- `updateMotor`, TsPumpMotorController.cpp:574-593. -/
def drive (c : Config K) (i : Input K) (s : State K) : State K :=
  { s with
    motorV := s.pulse * i.override.getD i.voltage
    motorLimit := if s.startup then c.limit else 10 ^ 15 }

/-- The conductance of `updatePowerLoad`, TsPumpMotorController.cpp:605-621, and its voltage. -/
def loads (c : Config K) (i : Input K) (s : State K) : K × K × K :=
  let v := if s.ctl then i.override.getD i.voltage else i.voltage
  let g := if s.ctl then c.load / max dblEps (v * v) else 0
  let h := if s.ctl then c.load else 0
  if s.motor then (v, g + s.pulse * s.pulse / max dblEps i.motorR, h + i.motorHeat) else (v, g, h)

/-- `updatePowerLoad`, TsPumpMotorController.cpp:603-624. -/
def account (c : Config K) (i : Input K) (s : State K) : State K :=
  let r := 1 / max dblEps (loads c i s).2.1
  { s with
    resist := r
    heat := (loads c i s).2.2
    current := (loads c i s).1 / r }

/-- `step`, TsPumpMotorController.cpp:431-437. -/
def step (sin : K → K) (turn : K) (c : Config K) (i : Input K) (s : State K) : State K := account c i (drive c i (filter sin turn c i (power c i s)))

/-- `getTotalPower`, TsPumpMotorController.cpp:630-633. -/
def totalPower (i : Input K) (s : State K) : K := i.voltage * s.current

/-- `n` passes. -/
def run (sin : K → K) (turn : K) (c : Config K) (i : ℕ → Input K) (s : State K) : ℕ → State K
  | 0 => s
  | n + 1 => step sin turn c (i n) (run sin turn c i s n)

end Gunns.PumpMotor
