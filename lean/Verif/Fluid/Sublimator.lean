import Verif.Base.Const
import Verif.Math.Interp

/-!
# A sublimator

Model of `GunnsFluidSublimator` (aspects/fluid/source/GunnsFluidSublimator.cpp): feed water freezes in a porous plate, and the heat of a
thermal network sublimates the ice into a vent.

Simplifications: doubles are elements of an ordered field, with a function `sq` in place of `std::sqrt`.  The relative humidity before it
is limited, the densities, molecular weights and saturation pressure are inputs.  The volume flow rate and the port directions are left
out.
-/

namespace Gunns.Sublimate

open Gunns.Interp (limitRange)

variable {K : Type*} [Field K] [LinearOrder K] [IsStrictOrderedRing K]

/-- Configuration, GunnsFluidSublimator.hh:47-77. -/
structure Config (K : Type*) where
  /-- `mHeatOfVaporization`, kJ/kg -/
  vapor : K
  /-- `mHeatOfFusion`, kJ/kg -/
  fusion : K
  /-- `mMaxIceMass` -/
  maxIce : K
  /-- `mIceCoverageFraction` -/
  coverage : K
  /-- `mMaxThermalConductivity` -/
  maxCond : K
  /-- `mPlateConductivity` -/
  plate : K
  /-- `mThermalConductivityGain` -/
  gain : K

/-- The checks on numbers of `validate`, GunnsFluidSublimator.cpp:266-317. -/
def Config.Valid (c : Config K) : Prop :=
  0 < c.fusion ∧ 0 < c.vapor ∧ c.fusion < c.vapor ∧ 0 < c.maxIce ∧ 0 < c.maxCond ∧ (0 ≤ c.coverage ∧ c.coverage ≤ 1) ∧
    0 < c.plate ∧ (0 ≤ c.gain ∧ c.gain ≤ 1)

/-- What a pass is given. -/
structure Pass (K : Type*) where
  dt : K
  /-- relative humidity of the vent node -/
  humidity : K
  /-- `mHeatBalance`, J/s -/
  heat : K
  /-- `mPotentialVector` before the solution: feed and vent -/
  p0 : K
  p1 : K
  /-- potential of the feed after the solution -/
  v0 : K
  /-- density and molecular weight of the content of the feed node -/
  density : K
  weight : K
  /-- molecular weight of the outflow of the feed node -/
  outWeight : K
  /-- molecular weight of the vent fluid -/
  ventWeight : K
  /-- saturation pressure at the temperature of the structure -/
  saturation : K
  /-- `mMalfFeedRateBiasValue` if `mMalfFeedRateBiasFlag` -/
  bias : Option K
  /-- `mMalfBlockageValue` if `mMalfBlockageFlag` -/
  block : Option K

/-- What stays from pass to pass. -/
structure State (K : Type*) where
  /-- `mIceMass` -/
  ice : K
  /-- `mThermalConductivity` -/
  cond : K

/-- `mVentRelativeHumidity`, GunnsFluidSublimator.cpp:386-387. -/
def rh (q : Pass K) : K := limitRange 0 q.humidity 1

/-- The sublimation rate, GunnsFluidSublimator.cpp:392-395; `mHeatOfSublimation` is the sum of the heats, 354. -/
def sublimation (c : Config K) (q : Pass K) (s : State K) : K :=
  if rh q < 1 ∧ 0 < s.ice then max 0 (-q.heat / (c.vapor + c.fusion) * (1 / 1000)) else 0

/-- The melting rate, GunnsFluidSublimator.cpp:396. -/
def melting (c : Config K) (q : Pass K) : K := max 0 (-q.heat / c.fusion * (1 / 1000))

/-- There is enough feed pressure, GunnsFluidSublimator.cpp:403-404. -/
def feeds (q : Pass K) : Bool := decide (1 / 10 < q.p0 - q.p1)

/-- The bias of the feed rate, GunnsFluidSublimator.cpp:408-411. -/
def feedBias (c : Config K) (q : Pass K) (s : State K) : K :=
  match q.bias with
  | some b => if feeds q then max b (-sublimation c q s) else 0
  | none => 0

/-- `1 - mMalfBlockageValue`, or one. -/
def openPart (q : Pass K) : K :=
  match q.block with
  | some b => 1 - b
  | none => 1

/-- The effective maximum ice mass, GunnsFluidSublimator.cpp:415-418. -/
def maxIce (c : Config K) (q : Pass K) : K := c.maxIce * openPart q

/-- The plate is not covered, GunnsFluidSublimator.cpp:428. -/
def bare (c : Config K) (q : Pass K) (s : State K) : Bool := feeds q && decide (s.ice < maxIce c q * c.coverage)

/-- The admittance of the breakthrough, GunnsFluidSublimator.cpp:433-445. -/
def through (sq : K → K) (c : Config K) (q : Pass K) (s : State K) : K :=
  c.plate * (1 - s.ice / (maxIce c q * c.coverage)) * openPart q * sq (1000 * q.density / (q.p0 - q.p1)) / q.weight

/-- The admittance of sublimation and bias, GunnsFluidSublimator.cpp:448 and 471. -/
def demand (c : Config K) (q : Pass K) (s : State K) : K := (sublimation c q s + feedBias c q s) / q.p0 / q.weight

/-- `mSystemConductance`, GunnsFluidSublimator.cpp:422-472. -/
def conductance (sq : K → K) (c : Config K) (q : Pass K) (s : State K) : K :=
  if bare c q s then 1 / 10 ^ 12 + through sq c q s + demand c q s
  else if feeds q = true ∧ rh q < 1 then 1 / 10 ^ 12 + demand c q s
  else 1 / 10 ^ 12

/-- Water that goes through the plate boils, GunnsFluidSublimator.cpp:456. -/
def boils (q : Pass K) : Bool := decide (rh q < 1) && decide (q.p1 < q.saturation)

/-- `mLiquidBreakthrough`, GunnsFluidSublimator.cpp:423 and 461. -/
def breaksThrough (c : Config K) (q : Pass K) (s : State K) : Bool := bare c q s && !boils q

/-- The rate of the ice, GunnsFluidSublimator.cpp:400-478. -/
def iceRate (sq : K → K) (c : Config K) (q : Pass K) (s : State K) : K :=
  if bare c q s then
    if boils q then
      (sublimation c q s + conductance sq c q s * (q.p0 - q.p1) * q.weight * (1 - rh q)) * c.vapor / c.fusion
    else -melting c q
  else if feeds q = true ∧ rh q < 1 then sublimation c q s * c.vapor / c.fusion
  else if rh q < 1 then -sublimation c q s
  else -melting c q

/-- The ice after the pass, GunnsFluidSublimator.cpp:481-482. -/
def nextIce (sq : K → K) (c : Config K) (q : Pass K) (s : State K) : K :=
  limitRange 0 (s.ice + iceRate sq c q s * q.dt) (maxIce c q)

/-- The thermal conductivity before the last check, GunnsFluidSublimator.cpp:487-492. -/
def filtered (sq : K → K) (c : Config K) (q : Pass K) (s : State K) : K :=
  (1 - c.gain) * s.cond + c.gain * (c.maxCond * (1 - rh q) * nextIce sq c q s / c.maxIce)

/-- The state after `step`, GunnsFluidSublimator.cpp:382-513. -/
def step (sq : K → K) (c : Config K) (q : Pass K) (s : State K) : State K :=
  { ice := nextIce sq c q s
    cond := if filtered sq c q s < dblEps then 0 else filtered sq c q s }

/-- `mFlux`, GunnsFluidSublimator.cpp:511 and 529: the source was made with the vent pressure before the solution. -/
def flux (sq : K → K) (c : Config K) (q : Pass K) (s : State K) : K :=
  q.v0 * conductance sq c q s - q.p1 * conductance sq c q s

/-- What is taken from the feed node, GunnsFluidSublimator.cpp:556-563. -/
def fed (sq : K → K) (c : Config K) (q : Pass K) (s : State K) : K :=
  if 100 * dblEps < flux sq c q s * q.outWeight then flux sq c q s * q.outWeight else 0

/-- `mSourceVector[1]`, GunnsFluidSublimator.cpp:512. -/
def ventSource (c : Config K) (q : Pass K) (s : State K) : K := sublimation c q s / q.ventWeight

/-- What is given to the vent node, GunnsFluidSublimator.cpp:564-567. -/
def vented (c : Config K) (q : Pass K) (s : State K) : K :=
  if 100 * dblEps < ventSource c q s * q.ventWeight then ventSource c q s * q.ventWeight else 0

/-- Several passes. -/
def run (sq : K → K) (c : Config K) (qs : List (Pass K)) (s : State K) : State K := qs.foldl (fun s q => step sq c q s) s

end Gunns.Sublimate
