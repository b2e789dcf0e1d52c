import Verif.Fluid.Conductivity
import Verif.Math.Laguerre
import Verif.Math.Brent
import Verif.Dyn.Utils

/-!
# Potential links, fans, centrifugal pumps and pressure heads

Models of `core/GunnsFluidPotential.cpp`, `aspects/fluid/potential/GunnsGasFan.cpp`, `GunnsGasFanCurve.cpp`,
`GunnsLiquidCentrifugalPump.cpp`, `GunnsPumpCavitation.cpp` and `GunnsFluidPressureHead.cpp`.

Simplifications: doubles are real numbers; the convective heat of the fan is left out (C69); the vapor pressure of the liquid is
given; the noise of `TsNoise::getNoise` is an input.
-/

namespace Gunns.Fans

open Gunns.FluidValve
open Gunns.Interp (limitRange)

/-! ## Potential link -/

/-- `GunnsFluidPotential`: the conductor, `mSourcePressure` and `mSourceVector`. -/
structure Pot where
  duct : Duct
  src : ℝ
  s0 : ℝ
  s1 : ℝ

/-- `buildPotential`, core/GunnsFluidPotential.cpp:202-210. -/
noncomputable def Pot.build (p : Pot) : Pot :=
  let s0 := -p.src * p.duct.matrix 0
  { p with
    s0 := s0
    s1 := -s0 }

/-- `step`, core/GunnsFluidPotential.cpp:190-197, of a link with nothing in `updateState`. -/
noncomputable def Pot.step (p : Pot) (f0 f1 : Fl) : Pot :=
  { p with
    duct := p.duct.stepConductor f0 f1 }.build

/-- `computeFlux`, core/GunnsFluidPotential.hh:178-181, with the solution at the two ports. -/
noncomputable def Pot.flux (p : Pot) (p0 p1 : ℝ) : ℝ := (p0 - p1) * p.duct.matrix 0 - p.s0

/-! ## Fan curve -/

/-- `GunnsGasFanCurve::evaluate`, GunnsGasFanCurve.cpp:104-113. -/
noncomputable def curve (c : ℕ → ℝ) (q : ℝ) : ℝ := loop (fun k s => s + c k * q ^ k) 6 0

open Classical in
/-- `GunnsGasFanCurve::improveRoot`, GunnsGasFanCurve.cpp:54-90; `none` is the exception.  Brent's method is asked only if Laguerre's
returned a root out of range; a division by zero in Brent's method does not occur (C38). -/
noncomputable def improveRoot (c : ℕ → ℝ) (root maxQ : ℝ) : Option ℝ :=
  match Laguerre.solve (fun k => (c k : ℂ)) 5 (root : ℂ) with
  | none => none
  | some (_, r) =>
    if (0 ≤ r.re ∧ r.re ≤ maxQ) ∧ |r.im| < dblEps then some r.re
    else match Brent.solve (curve c) 0 (maxQ + fltEps) fltEps with
      | .found x _ => some x
      | _ => none

/-! ## Fan -/

/-- Attributes of `GunnsGasFan`, GunnsGasFan.hh:141-189, and `mVolFlowRate` of the link. -/
structure Fan where
  /-- `mReferenceSpeed` -/
  refSpeed : ℝ
  /-- `mReferenceDensity` -/
  refDensity : ℝ
  /-- `mReferenceCoeffs` -/
  coeffs : ℕ → ℝ
  /-- `mReferenceQBep` -/
  qBep : ℝ
  /-- `mFilterGain` -/
  filterGain : ℝ
  /-- `mDriveRatio` -/
  driveRatio : ℝ
  /-- `mCheckValveActive` -/
  checkActive : Bool
  /-- `mSpecificSpeed` -/
  specificSpeed : ℝ
  /-- `mReferencePowerBep` -/
  powerBep : ℝ
  /-- `mPowerCoeffs` -/
  powerCoeffs : ℕ → ℝ
  /-- `mReferenceQ` -/
  refQ : ℝ
  /-- `mSystemConstant` -/
  sysConst : ℝ
  /-- `mMotorSpeed` -/
  motorSpeed : ℝ
  /-- `mImpellerSpeed` -/
  impellerSpeed : ℝ
  /-- `mAffinityCoeffs` -/
  affinity : ℕ → ℝ
  /-- `mSourceQ` -/
  sourceQ : ℝ
  /-- `mCheckValvePosition` -/
  position : ℝ
  /-- `mImpellerPower` -/
  power : ℝ
  /-- `mImpellerTorque` -/
  torque : ℝ
  /-- `mVolFlowRate` -/
  volFlow : ℝ
  /-- the potential link -/
  pot : Pot

/-- `mRefCoeffsRadial`, GunnsGasFan.cpp:40. -/
noncomputable def refRadial : ℕ → ℝ
  | 0 => 109 / 100
  | 1 => 33 / 100
  | 2 => -59 / 100
  | 3 => -39 / 100
  | 4 => 132 / 100
  | 5 => -76 / 100
  | _ => 0

/-- `mRefCoeffsAxial`, GunnsGasFan.cpp:41. -/
noncomputable def refAxial : ℕ → ℝ
  | 0 => 169 / 100
  | 1 => -545 / 100
  | 2 => 962 / 100
  | 3 => -488 / 100
  | 4 => 22 / 1000
  | 5 => -13 / 1000
  | _ => 0

/-- `mPowerCoeffsRadial`, GunnsGasFan.cpp:38. -/
noncomputable def powerRadial : ℕ → ℝ
  | 0 => 42 / 100
  | 1 => 69 / 100
  | 2 => -11 / 100
  | _ => 0

/-- `mPowerCoeffsAxial`, GunnsGasFan.cpp:39. -/
noncomputable def powerAxial : ℕ → ℝ
  | 0 => 2
  | 1 => -598 / 100
  | 2 => 878 / 100
  | 3 => -38 / 10
  | _ => 0

/-- `UnitConversion::SEC_PER_MIN_PER_2PI`, ms-utils/math/UnitConversion.cpp:1129-1130. -/
noncomputable def secPerMinPer2Pi : ℝ := 60 / (2 * Real.pi)

/-- Configuration of the curve and its best efficiency point, GunnsGasFan.hh:60-74. -/
structure Config where
  refSpeed : ℝ
  refDensity : ℝ
  coeffs : ℕ → ℝ
  qBep : ℝ
  bestEfficiency : ℝ

/-- The specific speed, GunnsGasFan.cpp:318-320. -/
noncomputable def specificSpeed (c : Config) (pressureBep : ℝ) : ℝ :=
  limitRange (1 / 5) (c.refSpeed / secPerMinPer2Pi * √c.qBep * (1 / 1000 * c.refDensity / pressureBep) ^ (3 / 4 : ℝ)) 5

/-- Between the constants of a radial and an axial fan, GunnsGasFan.cpp:328 and 337-340. -/
noncomputable def blend (f : ℝ) (radial axial : ℕ → ℝ) (k : ℕ) : ℝ := radial k + f * (axial k - radial k)

/-- What `initialize` makes of the curve, GunnsGasFan.cpp:291-343: the curve, the specific speed, the power at the best
efficiency point and the power coefficients; `none` is the exception. -/
noncomputable def initCurve (c : Config) : Option ((ℕ → ℝ) × ℝ × ℝ × (ℕ → ℝ)) :=
  if c.qBep > 0 ∧ c.bestEfficiency > 0 then
    if 1 < c.bestEfficiency then none
    else
      let define := c.coeffs 1 = 0 ∧ c.coeffs 2 = 0 ∧ c.coeffs 3 = 0 ∧ c.coeffs 4 = 0 ∧ c.coeffs 5 = 0
      let pressureBep := open Classical in if define then c.coeffs 0 else curve c.coeffs c.qBep
      let speed := specificSpeed c pressureBep
      let f := (speed - 1 / 5) / (5 - 1 / 5)
      let coeffs := open Classical in
        if define then fun k => blend f refRadial refAxial k * (pressureBep / c.qBep ^ k) else c.coeffs
      some (coeffs, speed, 1000 * pressureBep * c.qBep / c.bestEfficiency, blend f powerRadial powerAxial)
  else some (c.coeffs, 0, 0, fun _ => 0)

/-- `computeSourcePressure`, GunnsGasFan.cpp:557-615, for the density at the source port. -/
noncomputable def Fan.computeSource (n : Fan) (density : ℝ) : Fan :=
  if n.impellerSpeed > fltEps ∧ density > fltEps then
    let densityFactor := density / n.refDensity
    let speedFactor := n.impellerSpeed / n.refSpeed
    let affinity := fun k : ℕ => n.coeffs k * densityFactor * speedFactor ^ (2 - (k : ℝ))
    let gSys := max (n.refQ * speedFactor * (1 / 10000)) n.volFlow / √(limitRange dblEps n.pot.src (affinity 0))
    let sysConst := n.filterGain * gSys + (1 - n.filterGain) * n.sysConst
    let coeffs := if sysConst > dblEps then
        fun k => if k = 2 then affinity 2 - 1 / sysConst / sysConst else affinity k
      else affinity
    let sourceQ := match improveRoot coeffs n.sourceQ (n.refQ * speedFactor) with
      | some q => q
      | none => n.sourceQ
    { n with
      affinity := affinity
      sysConst := sysConst
      sourceQ := sourceQ
      pot := { n.pot with
        src := max 0 (curve affinity sourceQ) } }
  else
    { n with
      pot := { n.pot with
        src := 0 } }

/-- `updateState`, GunnsGasFan.cpp:469-488, with the outflow pressures of the nodes and the density at the source port. -/
noncomputable def Fan.updateState (n : Fan) (p0 p1 density : ℝ) : Fan :=
  let n := if n.driveRatio > dblEps then
      { n with
        impellerSpeed := n.motorSpeed / n.driveRatio }
    else n
  let n := n.computeSource density
  let position := if n.pot.src + p0 - p1 > 0 ∨ n.checkActive = false then 1 else 0
  { n with
    position := position
    pot := { n.pot with
      duct := { n.pot.duct with
        effCond := n.pot.duct.maxCond * position } } }

/-- The rest of a step after `updateState`: core/GunnsFluidConductor.cpp:241-277 and core/GunnsFluidPotential.cpp:196. -/
noncomputable def Fan.finish (n : Fan) (f0 f1 : Fl) : Fan :=
  { n with
    pot := { n.pot with
      duct := n.pot.duct.finish f0 f1 }.build }

/-- `step` of a fan: core/GunnsFluidPotential.cpp:190-197 with `updateState` of the fan.  The source port is that of the last flow. -/
noncomputable def Fan.step (n : Fan) (f0 f1 : Fl) (sourcePort1 : Bool) : Fan :=
  (n.updateState f0.p f1.p (if sourcePort1 then f1.rho else f0.rho)).finish f0 f1

/-- The power and the torque, GunnsGasFan.cpp:507-534, for the density at node 0. -/
noncomputable def Fan.updatePower (n : Fan) (density0 : ℝ) : Fan :=
  let power := if n.specificSpeed > 0 ∧ n.impellerSpeed > fltEps then
      let speedRatio := n.impellerSpeed / n.refSpeed
      let affinityQ := n.qBep * speedRatio
      let densityFactor := density0 / n.refDensity
      let affinityP := speedRatio * speedRatio * speedRatio * n.powerBep * densityFactor
      let q := limitRange 0 n.volFlow (n.refQ * speedRatio) / max affinityQ dblEps
      affinityP * (n.powerCoeffs 0 + n.powerCoeffs 1 * q + n.powerCoeffs 2 * q * q + n.powerCoeffs 3 * q * q * q)
    else 1000 * |n.volFlow| * n.pot.src
  { n with
    power := power
    torque := if n.motorSpeed > fltEps ∧ n.driveRatio > dblEps then -power * secPerMinPer2Pi / n.motorSpeed else 0 }

/-! ## Cavitation -/

/-- Attributes of `GunnsPumpCavitation`, GunnsPumpCavitation.hh:40-58. -/
structure Cav where
  /-- `mMalfFullCavitationFlag` and `mMalfFullCavitationDuration` -/
  malfFull : Bool
  fullDuration : ℝ
  /-- `mMalfPartialCavitationFlag`, `mMalfPartialCavitationDuration` and `mMalfPartialCavitationAmplitude` -/
  malfPartial : Bool
  partialDuration : ℝ
  partialAmplitude : ℝ
  /-- `mEnableAutoCavitation`, `mAutoCavitationDuration` and `mAutoCavitationAmplitude` -/
  enableAuto : Bool
  autoDuration : ℝ
  autoAmplitude : ℝ
  /-- `mCavitationElapsedTime` -/
  elapsed : ℝ
  /-- `mDuration` -/
  duration : ℝ
  /-- `mCavitationFraction` -/
  fraction : ℝ

/-- `update`, GunnsPumpCavitation.cpp:104-160, with the vapor pressure of the liquid and the pressure at the inlet, and the value of
the noise: the cavitation and the source. -/
noncomputable def Cav.step (c : Cav) (source dt vapor pressure noise : ℝ) : Cav × ℝ :=
  let elapsed := c.elapsed + dt
  let auto := c.enableAuto && decide (pressure < vapor)
  let full := c.malfFull || auto
  let amplitude := if c.malfFull then c.partialAmplitude else if auto then c.autoAmplitude
    else if c.malfPartial then c.partialAmplitude else 0
  let duration := if c.malfFull then c.fullDuration else if auto then c.autoDuration
    else if c.malfPartial then c.partialDuration else c.duration
  let elapsed := if full || c.malfPartial then elapsed else 0
  let duration := max duration dblEps
  let fraction := if full then c.fraction + 2 * √(max c.fraction (1 / 100)) * dt / duration
    else c.fraction - 2 * √(1 - min c.fraction (99 / 100)) * dt / duration
  let fraction := limitRange 0 fraction 1
  let source := source * (1 - fraction)
  let noiseFactor := if full || c.malfPartial then amplitude * max 0 (1 - elapsed / duration) else 0
  ({ c with
      elapsed := elapsed
      duration := duration
      fraction := fraction },
    if noiseFactor > 0 then max 0 (source + noiseFactor * noise) else source)

/-- `GunnsLiquidCentrifugalPump::updateState`, GunnsLiquidCentrifugalPump.cpp:273-277. -/
noncomputable def pumpUpdate (n : Fan) (c : Cav) (p0 p1 density dt vapor pressure noise : ℝ) : Fan × Cav :=
  let n := n.updateState p0 p1 density
  let r := c.step n.pot.src dt vapor pressure noise
  ({ n with
      pot := { n.pot with
        src := r.2 } }, r.1)

/-- `step` of a centrifugal pump. -/
noncomputable def pumpStep (n : Fan) (c : Cav) (f0 f1 : Fl) (sourcePort1 : Bool) (dt vapor pressure noise : ℝ) : Fan × Cav :=
  let r := pumpUpdate n c f0.p f1.p (if sourcePort1 then f1.rho else f0.rho) dt vapor pressure noise
  (r.1.finish f0 f1, r.2)

/-! ## Pressure head -/

/-- `GunnsFluidPressureHead`, GunnsFluidPressureHead.hh:40-60: `mFluidColumn`, `mReverseAcceleration`, `mRotationDcm` (`none` is the
null pointer) and `mTransposeRotation`. -/
structure Head where
  column : Dyn.Arr ℝ
  reverse : Bool
  dcm : Option (Dyn.Arr ℝ)
  transpose : Bool

/-- The acceleration in the structure's frame, GunnsFluidPressureHead.cpp:231-251. -/
def Head.accel (h : Head) (acceleration : Dyn.Arr ℝ) : Dyn.Arr ℝ :=
  let a := if h.reverse then Dyn.scaleV acceleration (-1) else acceleration
  match h.dcm with
  | some m => if h.transpose then Dyn.multiplyMtV m a 3 else Dyn.multiplyMV m a 3
  | none => a

/-- `stepPreSolver`, GunnsFluidPressureHead.cpp:214-269, on a potential link: the source pressure, from the densities at its ports. -/
noncomputable def Head.ofPotential (h : Head) (acceleration : Dyn.Arr ℝ) (rho0 rho1 : ℝ) : ℝ :=
  min rho0 rho1 * Dyn.dotV (h.accel acceleration) h.column 3 * (1 / 1000)

/-- The same on an accumulator, from the density at its port 1 and the position of its bellows. -/
noncomputable def Head.ofAccum (h : Head) (acceleration : Dyn.Arr ℝ) (rho1 bellows : ℝ) : ℝ :=
  rho1 * Dyn.dotV (h.accel acceleration) (Dyn.scaleV h.column bellows) 3 * (1 / 1000)

end Gunns.Fans
