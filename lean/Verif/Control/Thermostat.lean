import Verif.Sensor.Analog

/-!
# Thermostats

`HtrControl` and `Thermostat` (gunns-ts-models/aspects/signal/effectors/thermostat), on the model of their sensors.

Simplifications: doubles are elements of an ordered field; names and messages are left out; the command is on or
off, as the code never sets it to standby.
-/

namespace Gunns.Control

open Gunns.Sensor

variable {K : Type _} [Field K] [LinearOrder K] [IsStrictOrderedRing K] [FloorRing K]

/-- `ThermostatConfigData::LogicType`, Thermostat.hh:118-123. -/
inductive Logic
  /-- `SINGLE` -/
  | single
  /-- `AND` -/
  | and
  /-- `OR` -/
  | or
  deriving DecidableEq

/-- Attributes of `HtrControl` (HtrControl.hh:132-166) and `Thermostat` (Thermostat.hh:202-255); commands are
`true` for `LoadON`. -/
structure Thermostat (K : Type _) where
  /-- `mMalfCmdOnFlag` -/
  malfOn : Bool
  /-- `mMalfCmdOffFlag` -/
  malfOff : Bool
  /-- `mIsKillSwitchEngaged` -/
  kill : Bool
  /-- `mCommandActual` -/
  actual : Bool
  /-- `mCommandNominal` -/
  nominal : Bool
  /-- `mTempSensor`, `mNumSensors` of them -/
  sensors : List (Analog K)
  /-- `mMalfSetptLowFlag` -/
  malfLow : Bool
  /-- `mMalfSetptHighFlag` -/
  malfHigh : Bool
  /-- `mMalfSetptLowValue` -/
  malfLowValue : K
  /-- `mMalfSetptHighValue` -/
  malfHighValue : K
  /-- `mLogicType` -/
  logic : Logic
  /-- `mCommandSetpt` -/
  command : Bool
  /-- `mCommandSetptBias` -/
  bias : K
  /-- `mTemperatureSetpt` -/
  setpt : K
  /-- `mSetptLow` -/
  low : K
  /-- `mSetptHigh` -/
  high : K
  /-- `mNominalTemperatureSetpt` -/
  nominalSetpt : K
  /-- `mNominalSetptLow` -/
  nominalLow : K
  /-- `mNominalSetptHigh` -/
  nominalHigh : K

/-- `HtrControl::considerCommandMalfs`, HtrControl.cpp:180-206. -/
def Thermostat.considerCommandMalfs (s : Thermostat K) (status : Bool) : Bool :=
  if s.malfOff then false
  else if s.malfOn then true
  else if s.kill then false
  else status

/-- `evaluateAgainstSetpoints`, Thermostat.cpp:366-388. -/
def Thermostat.evaluateAgainstSetpoints (s : Thermostat K) (status : Bool) (sensedTemp : K) : Bool :=
  if sensedTemp > s.high then false
  else if sensedTemp < s.low then true
  else status

/-- `returnLoadModePrimary`, Thermostat.cpp:405-417. -/
def Thermostat.primary (s : Thermostat K) : Bool := if s.logic = .and then false else true

/-- `returnLoadModeSecondary`, Thermostat.cpp:434-446. -/
def Thermostat.secondary (s : Thermostat K) : Bool := if s.logic = .and then true else false

/-- The loop of `readSensors` over the sensors that are left, Thermostat.cpp:333-351. -/
def Thermostat.readLoop (s : Thermostat K) (status : Bool) : List (Analog K) → Bool
  | [] => s.secondary
  | x :: l => if s.primary = s.evaluateAgainstSetpoints status x.sensed then s.primary else s.readLoop status l

/-- `readSensors`, Thermostat.cpp:330-352. -/
def Thermostat.readSensors (s : Thermostat K) (status : Bool) : Bool := s.readLoop status s.sensors

/-- The loop that updates the sensors, Thermostat.cpp:276-280; `none` if one of them is undefined. -/
def updateSensors (dt : K) : List (Analog K) → Option (List (Analog K))
  | [] => some []
  | x :: l => (x.update dt).bind fun y => (updateSensors dt l).map fun l => y :: l

/-- `update`, Thermostat.cpp:270-315, of a thermostat that is initialized; `none` if a sensor is undefined. -/
def Thermostat.update (dt : K) (s : Thermostat K) : Option (Thermostat K) :=
  (updateSensors dt s.sensors).map fun l =>
    let s := { s with sensors := l }
    let s := { s with bias := s.setpt - s.nominalSetpt }
    let s := { s with
      low := s.nominalLow + s.bias
      high := s.nominalHigh + s.bias }
    let default := s.nominal
    let s := { s with nominal := s.readSensors default }
    let default := if s.malfLow then s.command else default
    let s := if s.malfLow then { s with low := s.malfLowValue } else s
    let default := if s.malfHigh then s.command else default
    let s := if s.malfHigh then { s with high := s.malfHighValue } else s
    let s := { s with command := s.readSensors default }
    { s with actual := s.considerCommandMalfs s.command }

/-- `setTemperatureSetpt`, Thermostat.cpp:453-456. -/
def Thermostat.setTemperatureSetpt (s : Thermostat K) (x : K) : Thermostat K := { s with setpt := x }

/-- `setCommandSetptBias`, Thermostat.cpp:463-469. -/
def Thermostat.setCommandSetptBias (s : Thermostat K) (x : K) : Thermostat K :=
  let s := { s with bias := x }
  { s with setpt := s.nominalSetpt + s.bias }

/-- Configuration and input data, Thermostat.hh:107-184; the sensor has those of its own. -/
structure ThermostatData (K : Type _) where
  /-- `cSensorConfig` and `iSensorInput` -/
  sensor : Analog K
  /-- `cNominalSetptLow` -/
  low : K
  /-- `cNominalSetptHigh` -/
  high : K
  /-- `cNumSensors` -/
  count : ℤ
  /-- `cLogicType` -/
  logic : Logic
  /-- `iMalfCmdOnFlag` -/
  malfOn : Bool
  /-- `iMalfCmdOffFlag` -/
  malfOff : Bool
  /-- `iIsKillSwitchEngaged` -/
  kill : Bool
  /-- `iMalfSetptLowFlag` -/
  malfLow : Bool
  /-- `iMalfSetptHighFlag` -/
  malfHigh : Bool
  /-- `iMalfSetptLowValue` -/
  malfLowValue : K
  /-- `iMalfSetptHighValue` -/
  malfHighValue : K

/-- `initialize` (Thermostat.cpp:174-222) and `validate` (232-251) with those of `HtrControl`
(HtrControl.cpp:123-155), of a thermostat whose commands are as the constructor set them (Thermostat.cpp:135-153,
HtrControl.cpp:93-102): `none` if it throws, `some none` if a sensor is undefined. -/
def Thermostat.init (c : ThermostatData K) : Option (Option (Thermostat K)) :=
  if c.malfOn = true ∧ c.malfOff = true then none
  else if c.count < 1 then none
  else if c.count > 1 ∧ c.logic = .single then none
  else if c.low ≥ c.high then none
  else if c.malfLowValue ≥ c.malfHighValue then none
  else match c.sensor.init with
    | none => none
    | some none => some none
    | some (some x) => some (some {
        malfOn := c.malfOn
        malfOff := c.malfOff
        kill := c.kill
        actual := false
        nominal := false
        sensors := List.replicate c.count.toNat x
        malfLow := c.malfLow
        malfHigh := c.malfHigh
        malfLowValue := c.malfLowValue
        malfHighValue := c.malfHighValue
        logic := c.logic
        command := false
        bias := 0
        setpt := 0.5 * (c.low + c.high)
        low := c.low
        high := c.high
        nominalSetpt := 0.5 * (c.low + c.high)
        nominalLow := c.low
        nominalHigh := c.high })

end Gunns.Control
