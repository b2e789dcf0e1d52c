import Verif.Fluid.Fan

/-!
# Drive shafts, gas turbines and displacement pumps

aspects/fluid/conductor/GunnsDriveShaftSpotter.cpp, aspects/fluid/conductor/GunnsGasTurbine.cpp, core/GunnsFluidSource.cpp,
aspects/fluid/source/GunnsGasDisplacementPump.cpp and aspects/fluid/source/GunnsLiquidDisplacementPump.cpp.

Simplifications: doubles are real numbers.  No port is on the vacuum node.  The heat of the impellers' walls (C69) and the powers of the
shaft by enthalpy (`mPowerInFan`, `mPowerOutTurb`, `mPowerExcess`, which nothing reads) are left out.  The links on a shaft are the torques
they return.
-/

namespace Gunns.Shafts

open Gunns.FluidValve Gunns.Fans
open Gunns.Interp (limitRange)

/-! ## Drive shaft -/

/-- Configuration of `GunnsDriveShaftSpotter`, GunnsDriveShaftSpotter.hh:42-44. -/
structure ShaftConfig where
  frictionConstant : ℝ
  frictionMinSpeed : ℝ
  inertia : ℝ

/-- `validateConfig` and `validateInput`, GunnsDriveShaftSpotter.cpp:156-210. -/
noncomputable def ShaftConfig.valid (c : ShaftConfig) (jamValue : ℝ) : Bool :=
  decide (¬ c.frictionConstant < 0) && decide (¬ c.frictionMinSpeed < 0) && decide (¬ c.inertia ≤ dblEps) && decide (¬ jamValue < 0)

/-- Attributes of `GunnsDriveShaftSpotter`: `mMotorSpeed`, `mFrictionTorque` and `mTotalExternalLoad`. -/
structure Shaft where
  speed : ℝ
  friction : ℝ
  load : ℝ

/-- The malfunctions: `mMalfJamFlag` with its value and `mMalfSpeedOverrideFlag` with its value (`none` is the flag false). -/
structure ShaftMalf where
  jam : Option ℝ
  override : Option ℝ

/-- `stepPreSolver`, GunnsDriveShaftSpotter.cpp:219-242: the speed that all the impellers are given. -/
noncomputable def Shaft.preSolver (c : ShaftConfig) (m : ShaftMalf) (s : Shaft) (dt : ℝ) : Shaft :=
  let friction := -c.frictionConstant * max s.speed c.frictionMinSpeed
  let speed := s.speed + (s.load + friction) * dt * secPerMinPer2Pi / c.inertia
  let speed := max speed dblEps
  { s with
    friction := friction
    speed := m.override.getD speed }

/-- `stepPostSolver`, GunnsDriveShaftSpotter.cpp:251-290, with the torques of the turbines and the fans. -/
def Shaft.postSolver (m : ShaftMalf) (s : Shaft) (turbines fans : List ℝ) : Shaft :=
  let load := turbines.foldl (· + ·) 0
  let load := fans.foldl (· + ·) load
  { s with
    load := match m.jam with
      | some v => load - v * load
      | none => load }

/-! ## Gas turbine -/

/-- Attributes of `GunnsGasTurbine`, GunnsGasTurbine.hh:145-185, the conductor and `mVolFlowRate` of the link. -/
structure Turb where
  duct : Duct
  /-- `mReferenceTemp` and `mReferencePress` -/
  refTemp : ℝ
  refPress : ℝ
  /-- `mLowSpeedMaxFlow` and `mHighSpeedMaxFlow` -/
  flowLow : ℝ
  flowHigh : ℝ
  /-- `mCoeffLowSpeed1`, `mCoeffHighSpeed1`, `mCoeffLowSpeed2` and `mCoeffHighSpeed2` -/
  rise1Low : ℝ
  rise1High : ℝ
  rise2Low : ℝ
  rise2High : ℝ
  /-- `mEffCoeffLowSpeed` and `mEffCoeffHighSpeed` -/
  effLow : ℕ → ℝ
  effHigh : ℕ → ℝ
  /-- `mMinEffLimLowSpeed`, `mMinEffLimHighSpeed`, `mMaxEffLimLowSpeed` and `mMaxEffLimHighSpeed` -/
  minLow : ℝ
  minHigh : ℝ
  maxLow : ℝ
  maxHigh : ℝ
  /-- `mCorrectedSpeedLow` and `mCorrectedSpeedHigh` -/
  speedLow : ℝ
  speedHigh : ℝ
  filterGain : ℝ
  driveRatio : ℝ
  motorSpeed : ℝ
  impellerSpeed : ℝ
  pressureRatio : ℝ
  pressureDrop : ℝ
  efficiency : ℝ
  torque : ℝ
  power : ℝ
  /-- `mPredictedFlowRate` -/
  predicted : ℝ
  volFlow : ℝ

/-- `validate`, GunnsGasTurbine.cpp:366-426, without the wall temperature. -/
noncomputable def Turb.valid (t : Turb) : Bool :=
  decide (¬ t.refPress < dblEps) && decide (¬ t.refTemp < dblEps) && decide (¬ t.driveRatio < dblEps) &&
  decide (¬ (t.flowLow < dblEps ∨ t.flowHigh < dblEps)) && decide (¬ (t.speedLow < dblEps ∨ t.speedHigh < dblEps)) &&
  decide (¬ |t.speedLow - t.speedHigh| < dblEps) && decide (¬ (t.maxHigh < t.minHigh ∨ t.maxLow < t.minLow)) &&
  decide (¬ (t.minHigh < dblEps ∨ t.minLow < dblEps ∨ t.maxHigh < dblEps ∨ t.maxLow < dblEps)) && decide (¬ t.motorSpeed < 0)

/-- `interpolate`, GunnsGasTurbine.cpp:582-584. -/
noncomputable def interpolate (y1 y2 fraction : ℝ) : ℝ := y1 + fraction * (y2 - y1)

/-- The fraction between the two curves, GunnsGasTurbine.cpp:492-495 and 553-556, for the temperature at the source port. -/
noncomputable def Turb.frac (t : Turb) (temp : ℝ) : ℝ :=
  let corrected := limitRange t.speedLow (t.impellerSpeed / (max dblEps temp / max dblEps t.refTemp)) t.speedHigh
  (corrected - t.speedLow) / (t.speedHigh - t.speedLow)

/-- `computeFlowRate`, GunnsGasTurbine.cpp:534-575, for the source port's fluid and temperature and the difference of the solution.  The
exception for equal corrected speeds cannot be raised once `validate` has passed, as nothing changes them. -/
noncomputable def Turb.computeFlowRate (t : Turb) (src : Fl) (temp delta : ℝ) : Turb :=
  let density := max dblEps src.rho
  let press := max dblEps src.p
  if density > fltEps then
    let frac := t.frac temp
    let maxFlow := interpolate t.flowLow t.flowHigh frac
    let rise1 := interpolate t.rise1Low t.rise1High frac
    let rise2 := interpolate t.rise2Low t.rise2High frac
    let drop := t.filterGain * delta + (1 - t.filterGain) * t.pressureDrop
    let ratio := max 1 (press / max dblEps (press - drop))
    let massFlow := maxFlow * ((ratio - 1) * (ratio - 1) + rise1 * (ratio - 1)) / max dblEps (ratio * ratio + rise2)
    let factor := press / max dblEps t.refPress / √(max dblEps temp / max dblEps t.refTemp)
    { t with
      pressureDrop := drop
      pressureRatio := ratio
      predicted := massFlow * factor }
  else
    { t with
      predicted := 0 }

/-- `updateState`, GunnsGasTurbine.cpp:447-465; the exponent of `predictConductivity` is its default 0.5. -/
noncomputable def Turb.updateState (t : Turb) (f0 f1 : Fl) (sourcePort1 : Bool) (temp delta : ℝ) : Turb :=
  let t := if t.driveRatio > dblEps then
      { t with
        impellerSpeed := t.motorSpeed / t.driveRatio }
    else t
  let t := t.computeFlowRate (if sourcePort1 then f1 else f0) temp delta
  { t with
    duct := { t.duct with
      effCond := if t.predicted ≥ 0 then predictConductivity t.predicted t.duct.minLin f0 f1 (1 / 2) else t.duct.maxCond } }

/-- `step`: core/GunnsFluidConductor.cpp:230-278 with `updateState` of the turbine.  The source port is that of the last flow. -/
noncomputable def Turb.step (t : Turb) (f0 f1 : Fl) (sourcePort1 : Bool) (temp delta : ℝ) : Turb :=
  let t := t.updateState f0 f1 sourcePort1 temp delta
  { t with
    duct := t.duct.finish f0 f1 }

/-- `updateFluid`, GunnsGasTurbine.cpp:476-525, for the temperature at the source port. -/
noncomputable def Turb.updateFluid (t : Turb) (temp : ℝ) : Turb :=
  let frac := t.frac temp
  let minLimit := interpolate t.minLow t.minHigh frac
  let maxLimit := interpolate t.maxLow t.maxHigh frac
  let efficiency := if t.pressureRatio ≥ minLimit ∧ t.pressureRatio ≤ maxLimit then
      limitRange 0 (curve (fun k => interpolate (t.effLow k) (t.effHigh k) frac) t.pressureRatio) 1
    else 0
  let power := -1000 * |t.volFlow| * t.pressureDrop * efficiency
  if t.motorSpeed > fltEps ∧ t.driveRatio > dblEps then
    { t with
      efficiency := efficiency
      power := power
      torque := -power * secPerMinPer2Pi / t.motorSpeed }
  else
    { t with
      efficiency := efficiency
      power := 0
      torque := 0 }

/-! ## Displacement pump -/

/-- Attributes of `GunnsGasDisplacementPump` and of `GunnsFluidSource`; `weight` is the molecular weight of the internal fluid. -/
structure Disp where
  cycleVolume : ℝ
  driveRatio : ℝ
  checkActive : Bool
  motorSpeed : ℝ
  impellerSpeed : ℝ
  position : ℝ
  volFlow : ℝ
  flowDemand : ℝ
  /-- `mMalfBlockageFlag` and `mMalfBlockageValue` -/
  block : Bool
  blockage : ℝ
  weight : ℝ
  /-- `mFlux` and `mFlowRate` -/
  flux : ℝ
  flowRate : ℝ
  power : ℝ
  torque : ℝ

/-- `updateState`, GunnsGasDisplacementPump.cpp:291-311, up to the cavitation. -/
noncomputable def Disp.displace (d : Disp) : Disp :=
  let d := if d.driveRatio > dblEps then
      { d with
        impellerSpeed := d.motorSpeed / d.driveRatio }
    else d
  let volFlow := d.impellerSpeed * d.cycleVolume / 60
  let position := if volFlow > 0 ∨ d.checkActive = false then 1 else 0
  { d with
    position := position
    volFlow := volFlow * position }

/-- `updateState`, GunnsGasDisplacementPump.cpp:315-321, after the cavitation, with the densities of the nodes' contents. -/
noncomputable def Disp.demand (d : Disp) (rho0 rho1 : ℝ) : Disp :=
  { d with
    flowDemand := if d.impellerSpeed > 0 then d.volFlow * rho0 else d.volFlow * rho1 }

/-- `GunnsFluidSource::step`, core/GunnsFluidSource.cpp:202-225: the flux, by the weight of the internal fluid. -/
noncomputable def Disp.source (d : Disp) : Disp :=
  let flowRate := if d.block then d.flowDemand * (1 - d.blockage) else d.flowDemand
  { d with
    flux := if d.weight > dblEps then flowRate / d.weight else 0 }

/-- A step of the pump for gas. -/
noncomputable def Disp.step (d : Disp) (rho0 rho1 : ℝ) : Disp := (d.displace.demand rho0 rho1).source

/-- A step of the pump for liquid, GunnsLiquidDisplacementPump.cpp:251-258: the cavitation is that at the inlet, with the vapor pressure
and the pressure of the node. -/
noncomputable def Disp.stepLiquid (d : Disp) (c : Cav) (rho0 rho1 dt vapor0 pressure0 vapor1 pressure1 noise : ℝ) : Disp × Cav :=
  let d := d.displace
  let r := if d.volFlow ≥ 0 then c.step d.volFlow dt vapor0 pressure0 noise else c.step d.volFlow dt vapor1 pressure1 noise
  (({ d with
      volFlow := r.2 }.demand rho0 rho1).source, r.1)

/-- `transportFlows`, core/GunnsFluidSource.cpp:259-284, and `updateFluid`, GunnsGasDisplacementPump.cpp:333-347, with the outflows of the
nodes; the source port is port 1 if the flux is negative (core/GunnsFluidLink.cpp: `determineSourcePort`), and the internal fluid becomes
its outflow. -/
noncomputable def Disp.transport (d : Disp) (f0 f1 : Fl) (drop : ℝ) : Disp :=
  let src := if d.flux < 0 then f1 else f0
  let flowRate := d.flux * src.mw
  let volFlow := if src.rho > dblEps then flowRate / src.rho else 0
  let power := 1000 * |volFlow * drop|
  { d with
    flowRate := flowRate
    volFlow := volFlow
    power := power
    torque := if |d.motorSpeed| > fltEps ∧ d.driveRatio > dblEps then -power * secPerMinPer2Pi / d.motorSpeed else 0
    weight := src.mw }

end Gunns.Shafts
