import Verif.Link.Elements

/-!
# The PID controller

`TsPidController` (gunns-ts-models/common/controllers/generic/TsPidController.cpp).

Simplifications: doubles are elements of an ordered field, so there is no rounding, no overflow and no
NaN; the name and its checks are left out.
-/

namespace Gunns.Control

open Gunns.Elements

variable {K : Type _} [Field K] [LinearOrder K] [IsStrictOrderedRing K]

/-- Attributes of `TsPidController`, TsPidController.hh. -/
structure Pid (K : Type _) where
  /-- `mGainP` -/
  gainP : K
  /-- `mGainI` -/
  gainI : K
  /-- `mGainD` -/
  gainD : K
  /-- `mInterval`, s -/
  interval : K
  /-- `mLimitLow` -/
  low : K
  /-- `mLimitHigh` -/
  high : K
  /-- `mInput` -/
  input : K
  /-- `mSetpoint` -/
  setpoint : K
  /-- `mTimer`, s -/
  timer : K
  /-- `mIntegral` -/
  integral : K
  /-- `mOutput` -/
  output : K
  /-- `mError` -/
  error : K
  /-- `mDerivative` -/
  derivative : K
deriving DecidableEq

/-- `initialize` and `validate`, TsPidController.cpp:200-254; `none` is the exception.  The error and the
derivative given do not matter. -/
def Pid.init (c : Pid K) : Option (Pid K) :=
  if ¬ c.interval > 0 then none
  else if ¬ c.high > c.low then none
  else some { c with
    error := c.input - c.setpoint
    derivative := 0 }

/-- `update(dt)`, TsPidController.cpp:264-287. -/
def Pid.update (dt : K) (c : Pid K) : Pid K :=
  let c := { c with timer := c.timer + dt }
  if c.interval > 0 ∧ c.timer ≥ c.interval then
    let prevError := c.error
    let c := { c with error := c.input - c.setpoint }
    let c := { c with integral := c.integral + c.error * c.timer }
    let c := { c with derivative := (c.error - prevError) / c.timer }
    let c := { c with output :=
      c.output + (c.error * c.gainP + c.integral * c.gainI + c.derivative * c.gainD) }
    let c := { c with timer := 0 }
    let c := if |c.integral| < dblEps then { c with integral := 0 } else c
    let c := if |c.output| < dblEps then { c with output := 0 } else c
    { c with output := limitRange c.low c.output c.high }
  else c

/-- `setInput` and `setSetpoint` (TsPidController.hh:154-167) followed by `update(dt, input)`,
TsPidController.cpp:297-301. -/
def Pid.call (c : Pid K) (dt input setpoint : K) : Pid K :=
  Pid.update dt { c with
    setpoint := setpoint
    input := input }

end Gunns.Control
