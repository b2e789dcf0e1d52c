import Mathlib.Algebra.Order.Floor.Ring
import Verif.Base.Const
import Verif.Base.Loop

/-!
# Sensors

`SensorBase`, `SensorAnalog`, `SensorBooleanBi`, `SensorBooleanAi`, `TsLimitSwitch`, `TsLimitSwitchAnalog` and
`TsNoise` (gunns-ts-models/common/sensors).

Simplifications: doubles and floats are elements of an ordered field with a floor, so there is no rounding,
overflow or NaN, and casts between them do nothing.  Unit conversions are any function: those that throw are
left out.  A noise function is a stream of values and the number of values drawn from it.  Names and messages
are left out.
-/

namespace Gunns.Sensor

variable {K : Type _} [Field K] [LinearOrder K] [IsStrictOrderedRing K] [FloorRing K]

/-- Attributes of `SensorBase`, SensorBase.hh:105-150. -/
structure Base where
  /-- `mMalfFailToFlag` -/
  failTo : Bool
  /-- `mMalfFailOffFlag` -/
  failOff : Bool
  /-- `mMalfFailStuckFlag` -/
  failStuck : Bool
  /-- `mMalfIgnorePower` -/
  ignorePower : Bool
  /-- `mMalfPerfectSensor` -/
  perfect : Bool
  /-- `mPowerFlag` -/
  power : Bool
  /-- `mDegradedFlag` -/
  degraded : Bool
  deriving DecidableEq

/-- `SensorBase::determinePower`, SensorBase.hh:210-213. -/
def Base.determinePower (s : Base) : Bool := (s.power || s.ignorePower) && !s.failOff

/-- `SensorBase::determineDegradation`, SensorBase.hh:222-225. -/
def Base.determineDegradation (s : Base) : Bool := (s.failTo || s.failOff || s.failStuck) && !s.perfect

/-- Attributes of `SensorAnalog`, SensorAnalog.hh:140-245. -/
structure Analog (K : Type _) extends Base where
  /-- `mMalfFailToValue` -/
  failToValue : K
  /-- `mMalfScaleFlag` -/
  malfScale : Bool
  /-- `mMalfScaleValue` -/
  malfScaleValue : K
  /-- `mMalfBiasFlag` -/
  malfBias : Bool
  /-- `mMalfBiasValue` -/
  malfBiasValue : K
  /-- `mMalfDriftFlag` -/
  malfDrift : Bool
  /-- `mMalfDriftRate` -/
  malfDriftRate : K
  /-- `mMalfNoiseFlag` -/
  malfNoise : Bool
  /-- `mMalfNoiseScale` -/
  malfNoiseScale : K
  /-- `mMalfNoiseMultiplier` -/
  malfNoiseMult : K
  /-- `mMalfResolutionFlag` -/
  malfResolution : Bool
  /-- `mMalfResolutionValue` -/
  malfResolutionValue : K
  /-- `mDrift` -/
  drift : K
  /-- `mMinRange` -/
  minRange : K
  /-- `mMaxRange` -/
  maxRange : K
  /-- `mOffValue` -/
  offValue : K
  /-- `mNominalBias` -/
  bias : K
  /-- `mNominalScale` -/
  scale : K
  /-- `mNominalNoiseScale` -/
  noiseScale : K
  /-- `mNominalNoiseMult` -/
  noiseMult : K
  /-- `mNominalResolution` -/
  resolution : K
  /-- `mNoiseFunction` is not null -/
  hasNoise : Bool
  /-- the values of `mNoiseFunction`, in the order of the calls -/
  noise : ℕ → K
  /-- the calls of `mNoiseFunction` so far -/
  calls : ℕ
  /-- the conversion that `mUnitConversion` selects -/
  convert : K → K
  /-- `mTruthInput` -/
  truthInput : K
  /-- `mTruthOutput` -/
  truthOutput : K
  /-- `mSensedOutput` -/
  sensed : K

/-- `FLT_MIN`. -/
def fltMin : K := 1 / 2 ^ 126

/-- `MsMath::limitRange`, ms-utils/math/MsMath.hh:433-436. -/
def limitRange (lower x upper : K) : K := max (min x upper) lower

/-- `MsMath::round`, ms-utils/math/MsMath.hh:605-609; the conversion to `int` is undefined (`none`) out of its
range. -/
def round (x : K) : Option ℤ :=
  let n := ⌊x + 1 / 2⌋
  if -2147483648 ≤ n ∧ n ≤ 2147483647 then some n else none

/-- `SensorAnalog::determineDegradation`, SensorAnalog.hh:308-313. -/
def Analog.determineDegradation (s : Analog K) : Bool :=
  (s.failTo || s.failOff || s.failStuck || s.malfScale || s.malfBias || s.malfDrift || s.malfNoise ||
    s.malfResolution) && !s.perfect

/-- `SensorAnalog::processInput`, SensorAnalog.cpp:387-398. -/
def Analog.processInput (s : Analog K) : Analog K :=
  { s with sensed := s.convert (if |s.truthInput| < fltMin then 0 else s.truthInput) }

/-- `SensorAnalog::processOutput`, SensorAnalog.cpp:404-408. -/
def Analog.processOutput (s : Analog K) : Analog K :=
  { s with
    sensed := limitRange s.minRange s.sensed s.maxRange
    truthOutput := s.convert s.truthInput }

/-- `SensorAnalog::applyScale`, SensorAnalog.cpp:415-421. -/
def Analog.applyScale (s : Analog K) : Analog K :=
  let x := s.sensed * s.scale
  { s with sensed := if s.malfScale then x * s.malfScaleValue else x }

/-- `SensorAnalog::applyBias`, SensorAnalog.cpp:427-433. -/
def Analog.applyBias (s : Analog K) : Analog K :=
  let x := s.sensed + s.bias
  { s with sensed := if s.malfBias then x + s.malfBiasValue else x }

/-- `SensorAnalog::applyDrift`, SensorAnalog.cpp:440-448. -/
def Analog.applyDrift (timeStep : K) (s : Analog K) : Analog K :=
  if s.malfDrift then
    { s with
      drift := s.drift + s.malfDriftRate * timeStep
      sensed := s.sensed + (s.drift + s.malfDriftRate * timeStep) }
  else { s with drift := 0 }

/-- The amplitude of the constant noise in use, SensorAnalog.cpp:478-481. -/
def Analog.activeNoiseScale (s : Analog K) : K := if s.malfNoise then s.malfNoiseScale else s.noiseScale

/-- The multiplier of the noise that scales with the input in use, SensorAnalog.cpp:479-482. -/
def Analog.activeNoiseMult (s : Analog K) : K := if s.malfNoise then s.malfNoiseMult else s.noiseMult

/-- A call of the noise function whose value, times the amplitude, is added if the amplitude is not small,
SensorAnalog.cpp:496-503. -/
def Analog.addNoise (amplitude : K) (s : Analog K) : Analog K :=
  if |amplitude| > fltEps then
    { s with
      sensed := s.sensed + s.noise s.calls * amplitude
      calls := s.calls + 1 }
  else s

/-- `SensorAnalog::applyNoise`, SensorAnalog.cpp:471-505. -/
def Analog.applyNoise (s : Analog K) : Analog K :=
  if s.hasNoise then
    (s.addNoise (s.activeNoiseMult * |s.sensed - s.offValue|)).addNoise s.activeNoiseScale
  else s

/-- The resolution in use, SensorAnalog.cpp:521-527. -/
def Analog.activeResolution (s : Analog K) : K :=
  |if s.malfResolution then s.malfResolutionValue else s.resolution|

/-- `SensorAnalog::applyResolution`, SensorAnalog.cpp:518-532. -/
def Analog.applyResolution (s : Analog K) : Option (Analog K) :=
  if s.activeResolution > fltEps then
    (round (s.sensed / s.activeResolution)).map fun n => { s with sensed := s.activeResolution * (n : K) }
  else some s

/-- `SensorAnalog::update`, SensorAnalog.cpp:334-357. -/
def Analog.update (timeStep : K) (s : Analog K) : Option (Analog K) :=
  let sensed : Option (Analog K) :=
    if s.perfect then some s.processInput
    else if s.determinePower then
      if s.failTo then some { s with sensed := s.failToValue }
      else if !s.failStuck then
        ((s.processInput.applyScale.applyBias.applyDrift timeStep).applyNoise).applyResolution
      else some s
    else some { s with sensed := s.offValue }
  sensed.map fun t =>
    let t := t.processOutput
    { t with degraded := t.determineDegradation }

/-- `SensorAnalog::validate`, SensorAnalog.cpp:311-324: whether the configuration is accepted. -/
def Analog.validate (s : Analog K) : Bool :=
  !decide (s.minRange ≥ s.maxRange) && (decide (s.minRange ≤ s.offValue) && decide (s.offValue ≤ s.maxRange))

/-- `SensorAnalog::initialize`, SensorAnalog.cpp:261-304, on the configuration and input data put in place:
`none` if it throws, `some none` if the first update is undefined. -/
def Analog.init (s : Analog K) : Option (Option (Analog K)) :=
  if s.validate then some (({ s with degraded := s.determineDegradation } : Analog K).update 0) else none

/-- `SensorAnalog::sense`, SensorAnalog.cpp:373-381. -/
def Analog.sense (timeStep : K) (power : Bool) (truth : K) (s : Analog K) : Option (Analog K) :=
  ({ s with
    power := power
    truthInput := truth } : Analog K).update timeStep

/-- Attributes of `SensorBooleanBi`, SensorBooleanBi.hh. -/
structure BoolBi extends Base where
  /-- `mMalfFailToValue` -/
  failToValue : Bool
  /-- `mOffValue` -/
  offValue : Bool
  /-- `mTruthInput` -/
  truthInput : Bool
  /-- `mSensedOutput` -/
  sensed : Bool
  deriving DecidableEq

/-- `SensorBooleanBi::update`, SensorBooleanBi.cpp:192-208, with the way the input is processed: it sets the
truth that is sensed. -/
def BoolBi.updateWith (process : BoolBi → Bool) (s : BoolBi) : BoolBi :=
  let processed : BoolBi :=
    { s with
      truthInput := process s
      sensed := process s }
  let t : BoolBi :=
    if s.perfect then processed
    else if s.determinePower then
      if s.failTo then { s with sensed := s.failToValue }
      else if !s.failStuck then processed else s
    else { s with sensed := s.offValue }
  { t with degraded := t.toBase.determineDegradation }

/-- `SensorBooleanBi::update` of `SensorBooleanBi` itself: the input is the truth
(SensorBooleanBi.cpp:238-241). -/
def BoolBi.update (s : BoolBi) : BoolBi := s.updateWith (fun s => s.truthInput)

/-- `SensorBooleanBi::sense`, SensorBooleanBi.cpp:224-232. -/
def BoolBi.sense (power truth : Bool) (s : BoolBi) : BoolBi :=
  ({ s with
    power := power
    truthInput := truth } : BoolBi).update

/-- Attributes of `SensorBooleanAi`, SensorBooleanAi.hh. -/
structure BoolAi (K : Type _) extends BoolBi where
  /-- `mTarget` -/
  target : K
  /-- `mTolerance` -/
  tolerance : K
  /-- `mTruthInputAnalog` -/
  analog : K

/-- `SensorBooleanBi::update` of `SensorBooleanAi`, with its own `processInput`
(SensorBooleanAi.cpp:232-239). -/
def BoolAi.update (s : BoolAi K) : BoolAi K :=
  { s with toBoolBi := s.toBoolBi.updateWith (fun _ => decide (|s.analog - s.target| ≤ s.tolerance)) }

/-- `SensorBooleanAi::sense`, SensorBooleanAi.cpp:211-219. -/
def BoolAi.sense (power : Bool) (truth : K) (s : BoolAi K) : BoolAi K :=
  ({ s with
    power := power
    analog := truth } : BoolAi K).update

/-- `SensorVlvOpenClose::sense`, SensorVlvOpenClose.cpp:103-111: the two sensors of a valve, open and closed. -/
def vlvSense (power : Bool) (position : K) (s : BoolAi K × BoolAi K) : BoolAi K × BoolAi K :=
  (s.1.sense power position, s.2.sense power position)

/-- Attributes of `TsLimitSwitch` and `TsLimitSwitchAnalog`. -/
structure Limit (K : Type _) where
  /-- `mTrueValue` -/
  trueValue : Bool
  /-- `mSensedValue` -/
  sensed : Bool
  /-- `mFailedValue` -/
  failedValue : Bool
  /-- `mNotPoweredValue` -/
  notPoweredValue : Bool
  /-- `mAnalogValue` -/
  analog : K
  /-- `mTargetValue` -/
  target : K
  /-- `mTolerance` -/
  tolerance : K

/-- `TsLimitSwitch::update`, TsLimitSwitch.cpp:110-122. -/
def Limit.updateBool (real powered failed : Bool) (s : Limit K) : Limit K :=
  { s with
    trueValue := real
    sensed := if failed then s.failedValue else if !powered then s.notPoweredValue else real }

/-- `TsLimitSwitchAnalog::update`, TsLimitSwitchAnalog.cpp:119-142. -/
def Limit.update (real : K) (powered failed : Bool) (s : Limit K) : Limit K :=
  let inRange : Bool :=
    if |real - s.target| < s.tolerance then true
    else if s.target > 0 ∧ real > s.target then true
    else if s.target < 0 ∧ real < s.target then true
    else false
  ({ s with analog := real } : Limit K).updateBool inRange powered failed

/-- The constants of `TsNoise`, TsNoise.cpp:15-27: `RAND_MAX`, the square root of two over e, and the natural
logarithm, which the compiler's library gives. -/
structure NoiseLib (K : Type _) where
  /-- `RAND_MAX` -/
  randMax : ℕ
  /-- `NUM` -/
  num : K
  /-- `std::log` -/
  log : K → K

/-- One trial of `TsNoise::getNoise`, TsNoise.cpp:60-78, of two values of `rand`. -/
def noiseTrial (lib : NoiseLib K) (r1 r2 : ℕ) : Option K :=
  let denomInv : K := 1 / ((lib.randMax : K) + 2)
  let u := ((r1 : K) + 1) * denomInv
  let z := ((r2 : K) + 1) * denomInv
  let v := lib.num * (2 * z - 1)
  let x := u - 449871 / 1000000
  let y := |v| - -(386595 / 1000000)
  let q := x * x + y * (19600 / 100000 * y - 25472 / 100000 * x)
  if q < 27597 / 100000 ∨ q < 27846 / 100000 ∧ v * v < -4 * u * u * lib.log u then
    let n := 1 / (4417173413469 / 1000000000000) * v / u
    if |n| ≤ 1 then some n else none
  else none

/-- The loop of `TsNoise::getNoise`, TsNoise.cpp:53-83, on a stream of values of `rand`: the noise and the
number of values drawn. -/
def noiseLoop (lib : NoiseLib K) (rand : ℕ → ℕ) : ℕ → ℕ → K × ℕ
  | 0, k => (0, k)
  | n + 1, k =>
    match noiseTrial lib (rand k) (rand (k + 1)) with
    | some x => (x, k + 2)
    | none => noiseLoop lib rand n (k + 2)

/-- `TsNoise::getNoise`, TsNoise.cpp:46-84, from the place in the stream of `rand`. -/
def getNoise (lib : NoiseLib K) (rand : ℕ → ℕ) (k : ℕ) : K × ℕ := noiseLoop lib rand 50 k

end Gunns.Sensor
