import Verif.Math.Interp
import Mathlib.Analysis.SpecialFunctions.Pow.Real

/-!
# Conductivity and conductance of fluid links

`GunnsFluidUtils::computeAdmittance` and `predictConductivity`, and the conductance of `GunnsFluidConductor` and
`GunnsFluidValve` with tuning, leak and blockage.

Simplifications: doubles are real numbers; a fluid is its density, molecular weight and pressure, which the network
gives anew in every step; the transport of fluid is in Verif/Fluid/Network.lean. The heat exchange of the valve and the
tuned temperature drop, which do not touch the conductance, are left out.
-/

namespace Gunns.FluidValve

open Gunns.Interp (limitRange)

/-- What the functions read of a `PolyFluid`. -/
structure Fl where
  /-- `getDensity` -/
  rho : ℝ
  /-- `getMWeight` -/
  mw : ℝ
  /-- `getPressure` -/
  p : ℝ

/-- The power in GunnsFluidUtils.cpp:139-146 and :287-294. -/
noncomputable def power (exponent z : ℝ) : ℝ :=
  let limitExp := limitRange (1 / 2) exponent 1
  if 1 / 2 = limitExp then √z else if 1 = limitExp then z else z ^ limitExp

/-- The weight for the conversion to moles, GunnsFluidUtils.cpp:120-129. -/
noncomputable def useMW (f0 f1 : Fl) : ℝ :=
  if f0.mw < dblEps then f1.mw else if f1.mw < dblEps then f0.mw else 1 / 2 * (f0.mw + f1.mw)

/-- `UnitConversion::PA_PER_KPA`, ms-utils/math/UnitConversion.cpp:623-624. -/
def paPerKpa : ℝ := 1000

/-- `GunnsFluidUtils::computeAdmittance`, core/GunnsFluidUtils.cpp:76-151. -/
noncomputable def computeAdmittance (conductivity minLin : ℝ) (f0 f1 : Fl) (exponent : ℝ) : ℝ :=
  let avgDensity := 1 / 2 * (f0.rho + f1.rho)
  let dP := max minLin |f0.p - f1.p|
  let dPPa := paPerKpa * dP
  if dP > dblEps ∧ useMW f0 f1 > dblEps then
    conductivity * power exponent (avgDensity * dPPa) / dP / useMW f0 f1
  else 0

/-- `GunnsFluidUtils::predictConductivity`, core/GunnsFluidUtils.cpp:266-298. -/
noncomputable def predictConductivity (mdot minLin : ℝ) (f0 f1 : Fl) (exponent : ℝ) : ℝ :=
  let dP := |f0.p - f1.p|
  if dP > dblEps then
    let avgDensity := 1 / 2 * (f0.rho + f1.rho)
    let dP := if dP < minLin then minLin else dP
    if avgDensity > dblEps then
      |mdot| / power exponent (paPerKpa * dP * avgDensity)
    else 0
  else 0

/-- `GunnsFluidUtils::TuningMode`, core/GunnsFluidUtils.hh:50-54. -/
inductive Tune
  /-- `OFF` -/
  | off
  /-- `MASS` -/
  | mass
  /-- `TRUE_VOL` -/
  | trueVol
  /-- `STD_VOL` -/
  | stdVol
  /-- `DELTA_T` -/
  | deltaT

/-- Attributes of `GunnsFluidConductor` (core/GunnsFluidConductor.hh:131-143) and `GunnsFluidValve`
(aspects/fluid/conductor/GunnsFluidValve.hh:113-148), with those of the base link that matter. -/
structure Duct where
  /-- `mMaxConductivity` -/
  maxCond : ℝ
  /-- `mEffectiveConductivity` -/
  effCond : ℝ
  /-- `mSystemConductance` -/
  sysCond : ℝ
  /-- `mPressureExponent` -/
  exponent : ℝ
  /-- `mTuneMode` -/
  tune : Tune
  /-- `mTuneMassFlow` -/
  tuneMass : ℝ
  /-- `mTuneVolFlow` -/
  tuneVol : ℝ
  /-- `mMinLinearizationPotential` -/
  minLin : ℝ
  /-- `mMalfBlockageFlag` -/
  block : Bool
  /-- `mMalfBlockageValue` -/
  blockage : ℝ
  /-- `mAdmittanceMatrix` -/
  matrix : Nat → ℝ
  /-- `mAdmittanceUpdate` -/
  update : Bool
  /-- `mPosition`, of a valve -/
  position : ℝ
  /-- `mMalfLeakThruFlag`, of a valve -/
  leak : Bool
  /-- `mMalfLeakThruValue`, of a valve -/
  leakRate : ℝ
  /-- `mPreviousLeakRate`, of a valve -/
  prevLeak : ℝ
  /-- `mLeakConductivity`, of a valve -/
  leakCond : ℝ

/-- `GunnsBasicLink::mConductanceLimit`, core/GunnsBasicLink.cpp:40. -/
def conductanceLimit : ℝ := 10 ^ 15

/-- `UnitConversion::STD_DENSITY_AIR`, ms-utils/math/UnitConversion.cpp:1153-1154. -/
noncomputable def stdDensityAir : ℝ := 12041 / 10000

/-- `GunnsFluidConductor::tuneFlow`, core/GunnsFluidConductor.cpp:426-435. -/
noncomputable def Duct.tuneFlow (d : Duct) (f0 f1 : Fl) (flowRate : ℝ) : Duct :=
  let g := predictConductivity flowRate d.minLin f0 f1 d.exponent
  { d with
    maxCond := g
    effCond := g
    block := false
    tune := .off }

/-- The tuning in `step`, core/GunnsFluidConductor.cpp:241-268. -/
noncomputable def Duct.tuning (d : Duct) (f0 f1 : Fl) : Duct :=
  match d.tune with
  | .mass => d.tuneFlow f0 f1 d.tuneMass
  | .trueVol => if d.tuneVol ≥ 0 then d.tuneFlow f0 f1 (d.tuneVol * f0.rho)
      else d.tuneFlow f0 f1 (d.tuneVol * f1.rho)
  | .stdVol => d.tuneFlow f0 f1 (d.tuneVol * stdDensityAir)
  | .deltaT => { d with
      tune := .off }
  | .off => { d with
      tune := .off }

/-- `buildConductance`, core/GunnsFluidConductor.cpp:301-310. -/
noncomputable def Duct.build (d : Duct) : Duct :=
  if |d.matrix 0 - d.sysCond| > 0 then
    { d with
      matrix := fun k => match k with
        | 0 => d.sysCond
        | 1 => -d.sysCond
        | 2 => -d.sysCond
        | 3 => d.sysCond
        | k => d.matrix k
      update := true }
  else d

/-- The rest of `step` after `updateState`, core/GunnsFluidConductor.cpp:241-277, with `linearizeConductance`
(:289-296). -/
noncomputable def Duct.finish (d : Duct) (f0 f1 : Fl) : Duct :=
  let d := d.tuning f0 f1
  let d := if d.block then
      { d with
        effCond := d.effCond * (1 - d.blockage) }
    else d
  let d := { d with
    sysCond := limitRange 0 (computeAdmittance d.effCond d.minLin f0 f1 d.exponent) conductanceLimit }
  d.build

/-- `GunnsFluidConductor::step`, core/GunnsFluidConductor.cpp:230-278; `updateState` of the conductor does nothing. -/
noncomputable def Duct.stepConductor (d : Duct) (f0 f1 : Fl) : Duct :=
  let d := { d with
    effCond := d.maxCond }
  d.finish f0 f1

/-- `GunnsFluidValve::updateState`, aspects/fluid/conductor/GunnsFluidValve.cpp:261-285; the exponent of
`predictConductivity` is its default 0.5. -/
noncomputable def Duct.updateValve (d : Duct) (f0 f1 : Fl) : Duct :=
  let d := if d.leak then
      if d.prevLeak ≠ d.leakRate then
        { d with
          leakCond := predictConductivity d.leakRate d.minLin f0 f1 (1 / 2)
          prevLeak := d.leakRate }
      else d
    else
      { d with
        prevLeak := 0
        leakCond := 0 }
  let d := { d with
    effCond := d.maxCond * d.position }
  if d.effCond < d.leakCond then
    { d with
      effCond := d.leakCond }
  else d

/-- `step` of a valve, core/GunnsFluidConductor.cpp:230-278. -/
noncomputable def Duct.stepValve (d : Duct) (f0 f1 : Fl) : Duct :=
  let d := { d with
    effCond := d.maxCond }
  (d.updateValve f0 f1).finish f0 f1

/-- `GunnsFluidConductor::computeFlux`, core/GunnsFluidConductor.cpp:407-417, with `m100EpsilonLimit` (100 times
DBL_EPSILON); the potentials are those of the nodes. -/
noncomputable def Duct.flux (d : Duct) (p0 p1 : ℝ) : ℝ :=
  if |p0 - p1| < max p0 p1 * (100 * dblEps) then 0 else (p0 - p1) * d.matrix 0

/-- The mass flow rate in `transportFlows`, core/GunnsFluidConductor.cpp:347-349, between nodes that are not the
ground node, with `determineSourcePort` (core/GunnsFluidLink.cpp:370-382). -/
noncomputable def Duct.flowRate (d : Duct) (f0 f1 : Fl) : ℝ :=
  d.flux f0.p f1.p * (if d.flux f0.p f1.p < 0 then f1.mw else f0.mw)

end Gunns.FluidValve
