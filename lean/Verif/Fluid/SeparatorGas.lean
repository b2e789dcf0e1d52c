import Mathlib.Algebra.Order.Field.Basic
import Verif.Base.Const

/-!
# The gas separator: liquid condensed from a gas stream

`aspects/fluid/source/GunnsFluidSeparatorGas`: the coefficients from the configuration and the update of the liquid held.  Doubles are an ordered field; the power
with the configured exponent is a parameter `pw`.  The humidity and the share of the condensing gas in the stream are inputs of a pass.
-/

namespace Gunns.SepGas

variable {K : Type*} [Field K] [LinearOrder K] [IsStrictOrderedRing K]

/-- `m100EpsilonLimit`, core/GunnsBasicLink.cpp:43. -/
def tiny : K := 100 * dblEps

/-- The configuration, GunnsFluidSeparatorGas.hh, `GunnsFluidSeparatorGasConfigData`. -/
structure Config (K : Type*) where
  /-- `mMaxLiquidMass` -/
  most : K
  /-- `mReferenceSpeed` -/
  refSpeed : K
  /-- `mReferencePressure` -/
  refPressure : K
  /-- `mReferenceRemovalRate` -/
  refRate : K

/-- The checks of the configuration, GunnsFluidSeparatorGas.cpp:247-268; those of the gas type and the exponent are left out. -/
def Config.valid (c : Config K) : Bool := !decide (c.most < fltEps) && !decide (c.refSpeed < fltEps) && !decide (c.refPressure < fltEps) && !decide (c.refRate < fltEps)

/-- `mPowerCurveCoefficient`, GunnsFluidSeparatorGas.cpp:313-314. -/
def Config.curve (pw : K → K) (c : Config K) : K := c.refPressure / c.refSpeed / pw c.most

/-- `mRemovalRateCoefficient`, GunnsFluidSeparatorGas.cpp:315. -/
def Config.removal (c : Config K) : K := c.refRate / c.refSpeed

/-- What a pass finds: `mFlowRate`, `mRelativeHumidity`, the mass fraction of the gas, `mTransferFlowRate`, `mSeparatorSpeed` and the time step. -/
structure Input (K : Type*) where
  flow : K
  humidity : K
  fraction : K
  transfer : K
  speed : K
  dt : K

/-- The state, GunnsFluidSeparatorGas.hh. -/
structure State (K : Type*) where
  /-- `mLiquidMass` -/
  liquid : K
  /-- `mLiquidMassError` -/
  error : K
  /-- `mSeparationRate` -/
  rate : K
  /-- `mLiquidOverflow` -/
  overflow : Bool
  /-- `mLiquidDeltaP` -/
  deltaP : K
  /-- what leaves node 1 in `collectInflux`, with the opposite sign -/
  drawn : K

/-- `noCondensate` or no time, GunnsFluidSeparatorGas.cpp:361-362 and 378. -/
def idle (i : Input K) : Bool := decide (i.dt < dblEps) || (decide (i.flow < tiny) || decide (i.humidity < 1))

/-- `condensedMass`, GunnsFluidSeparatorGas.cpp:384-387. -/
def condensed (c : Config K) (i : Input K) : K := min (i.fraction * |i.flow| * i.dt) (c.removal * i.speed * i.dt)

/-- The removal of liquid by the transfer, GunnsFluidSeparatorGas.cpp:366-375. -/
def remove (i : Input K) (s : State K) : State K :=
  let m := s.liquid - max 0 (i.transfer * i.dt)
  if m < 0 then { s with
    error := s.error - m
    liquid := 0 }
  else { s with liquid := m }

/-- The separation, GunnsFluidSeparatorGas.cpp:378-401. -/
def separate (c : Config K) (i : Input K) (s : State K) : State K :=
  if idle i then { s with
    rate := 0
    overflow := false }
  else
    let sep := min (condensed c i) (c.most - s.liquid)
    { s with
      overflow := decide (condensed c i > sep)
      liquid := s.liquid + sep
      rate := sep / i.dt }

/-- The pressure of the liquid and the source of the node, GunnsFluidSeparatorGas.cpp:404-422. -/
def supply (pw : K → K) (c : Config K) (i : Input K) (s : State K) : State K :=
  { s with
    deltaP := c.curve pw * i.speed * pw s.liquid
    drawn := if s.rate > tiny then s.rate else 0 }

/-- `updateFluid`, GunnsFluidSeparatorGas.cpp:356-423. -/
def update (pw : K → K) (c : Config K) (i : Input K) (s : State K) : State K := supply pw c i (separate c i (remove i s))

/-- `n` passes. -/
def run (pw : K → K) (c : Config K) (i : ℕ → Input K) (s : State K) : ℕ → State K
  | 0 => s
  | n + 1 => update pw c (i n) (run pw c i s n)

end Gunns.SepGas
