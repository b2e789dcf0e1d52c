import Verif.Math.Interp
import Mathlib.Analysis.SpecialFunctions.Pow.Real
import Mathlib.Analysis.SpecialFunctions.Log.Base

/-!
# Heat between a flow and walls

`GunnsFluidUtils`: friction factor, Nusselt number, heat transfer coefficient, convective heat flux, isentropic temperature
and its tuning; `GunnsFluidHeatExchanger`, `GunnsFluidHxDynHtc` and `GunnsFluidPipe`.

Simplifications: doubles are real numbers. A fluid is what the functions read of it; its enthalpy and specific heat are
functions of the temperature, as its mixture and pressure do not change in these functions. The transport of the fluid is
in Verif/Fluid/Network.lean. Division by zero is total here: the theorems show where it does not happen.
-/

namespace Gunns.Heat

open Gunns.Interp (limitRange)

/-- `RE_LAMINAR_LIMIT`, core/GunnsFluidUtils.cpp:34. -/
def reLaminar : ℝ := 2300

/-- `RE_TRANSITION_LIMIT`, core/GunnsFluidUtils.cpp:36. -/
def reTransition : ℝ := 4000

/-- `RE_TURBULENT_LIMIT`, core/GunnsFluidUtils.cpp:39. -/
def reTurbulent : ℝ := 10 ^ 8

/-- `computeFlowRegimeFactor`, core/GunnsFluidUtils.cpp:574-577. -/
noncomputable def regimeFactor (re : ℝ) : ℝ := limitRange 0 ((re - reLaminar) / (reTransition - reLaminar)) 1

/-- `std::log10` -/
noncomputable def log10 (x : ℝ) : ℝ := Real.logb 10 x

/-- `rod`, core/GunnsFluidUtils.cpp:665. -/
noncomputable def relRoughness (rOverD : ℝ) : ℝ := limitRange 0 rOverD (1 / 2) / 3.7

/-- `a`, core/GunnsFluidUtils.cpp:667. -/
noncomputable def fricA (rod ret : ℝ) : ℝ := log10 (rod + 12 / ret)

/-- `b`, core/GunnsFluidUtils.cpp:668. -/
noncomputable def fricB (rod ret : ℝ) : ℝ := log10 (rod - 5.02 * fricA rod ret / ret)

/-- `c`, core/GunnsFluidUtils.cpp:669. -/
noncomputable def fricC (rod ret : ℝ) : ℝ := log10 (rod + 10.04 * fricA rod ret * fricB rod ret / ret)

/-- `turbulent`, core/GunnsFluidUtils.cpp:670. -/
noncomputable def fricTurbulent (rod ret : ℝ) : ℝ :=
  0.25 / (fricA rod ret - (fricB rod ret - fricA rod ret) ^ 2 / (fricC rod ret - 2 * fricB rod ret + fricA rod ret)) ^ 2

/-- `computeDarcyFrictionFactor`, core/GunnsFluidUtils.cpp:650-677. -/
noncomputable def darcy (rOverD re : ℝ) : ℝ :=
  let factor := regimeFactor re
  let laminar := 64 / limitRange dblEps re reLaminar
  if factor > 0 then
    laminar * (1 - factor) + fricTurbulent (relRoughness rOverD) (max re reTransition) * factor
  else laminar

/-- The denominator in core/GunnsFluidUtils.cpp:629. -/
noncomputable def gnielinskiDen (darcy8 pr : ℝ) : ℝ := 1 + 12.7 * √darcy8 * (pr ^ ((2 : ℝ) / 3) - 1)

/-- `computeNusseltNumber`, core/GunnsFluidUtils.cpp:610-636; `prandtl` is the fluid's. -/
noncomputable def nusselt (prandtl rOverD re : ℝ) : ℝ :=
  let factor := regimeFactor re
  if factor > 0 then
    let ret := max re reTransition
    let darcy8 := darcy rOverD ret / 8
    let pr := limitRange 0 prandtl (1 / dblEps)
    let turbulent := darcy8 * (ret - 1000) * pr / gnielinskiDen darcy8 pr
    3.66 * (1 - factor) + turbulent * factor
  else 3.66

/-- What the functions read of a `PolyFluid`. -/
structure Fl where
  /-- `getTemperature` -/
  t : ℝ
  /-- `getDensity` -/
  density : ℝ
  /-- `getViscosity` -/
  viscosity : ℝ
  /-- `getThermalConductivity` -/
  conductivity : ℝ
  /-- `getPrandtlNumber` -/
  prandtl : ℝ
  /-- `getSpecificEnthalpy`, at a temperature -/
  enthalpy : ℝ → ℝ
  /-- `getSpecificHeat`, at a temperature -/
  heat : ℝ → ℝ

/-- `computeReynoldsNumber`, core/GunnsFluidUtils.cpp:590-595. -/
noncomputable def reynolds (f : Fl) (velocity length : ℝ) : ℝ := f.density * velocity * length / f.viscosity

/-- `computeConvectiveHeatTransferCoefficient`, core/GunnsFluidUtils.cpp:538-563. -/
noncomputable def coefficient (flowRate : ℝ) (f : Fl) (rOverD diameter : ℝ) : ℝ :=
  let mdot := |flowRate|
  if mdot > dblEps ∧ diameter > dblEps then
    let vm := mdot / f.density / (Real.pi / 4) / diameter / diameter
    let re := limitRange dblEps (reynolds f vm diameter) reTurbulent
    let kOverL := f.conductivity / diameter
    kOverL * nusselt f.prandtl rOverD re
  else 0

/-- `computeConvectiveHeatFlux` with a known coefficient, core/GunnsFluidUtils.cpp:693-727: the fluid with its new
temperature and the heat from the fluid to the wall. -/
noncomputable def convective (f : Fl) (flowRate ua wall : ℝ) : Fl × ℝ :=
  let mdot := |flowRate|
  if mdot > dblEps ∧ ua > dblEps then
    let cp := f.heat f.t
    let limitUA := min ua (100 * mdot * cp)
    let outT := wall + Real.exp (-(limitUA / mdot / cp)) * (f.t - wall)
    ({ f with t := outT }, mdot * (f.enthalpy f.t - f.enthalpy outT))
  else (f, 0)

/-- `updateFluid` of a pipe, aspects/fluid/conductor/GunnsFluidPipe.cpp:218-227, with `computeConvectiveHeatFlux`,
core/GunnsFluidUtils.cpp:745-758. -/
noncomputable def pipe (f : Fl) (flowRate rOverD diameter area wall : ℝ) : Fl × ℝ :=
  convective f flowRate (area * coefficient flowRate f rOverD diameter) wall

/-- `computeIsentropicTemperature`, core/GunnsFluidUtils.cpp:213-244; `gas` tells whether the fluid is one. -/
noncomputable def isentropic (scale p1 p2 : ℝ) (gas : Bool) (t gamma : ℝ) : ℝ :=
  if gas = true ∧ p1 > 0 then
    if p2 / p1 > dblEps ∧ gamma > dblEps then t + scale * (t * (p2 / p1) ^ ((gamma - 1) / gamma) - t)
    else t
  else t

/-- What `predictExpansionScaleFactor` reads of a fluid. -/
structure Gas where
  /-- `getPressure` -/
  p : ℝ
  /-- `getTemperature` -/
  t : ℝ
  /-- `getAdiabaticIndex` -/
  gamma : ℝ
  /-- `getPhase` is gas. -/
  gas : Bool

/-- The quotient in `predictExpansionScaleFactor` (core/GunnsFluidUtils.cpp:334-335, 340-341) for gas that flows from pressure
`pu` to `pd`; `none` for a division by zero. -/
noncomputable def tunedScale (deltaT : ℝ) (f : Gas) (pu pd : ℝ) : Option ℝ :=
  let den := f.t * ((pd / pu) ^ ((f.gamma - 1) / f.gamma) - 1)
  if den = 0 then none else some (limitRange 0 (-|deltaT| / den) 1)

/-- `predictExpansionScaleFactor`, core/GunnsFluidUtils.cpp:318-345; `none` for a division by zero. -/
noncomputable def predictScale (deltaT : ℝ) (f0 f1 : Gas) : Option ℝ :=
  let p0 := max dblEps f0.p
  let p1 := max dblEps f1.p
  if p0 ≥ p1 ∧ f0.gas = true then tunedScale deltaT f0 p0 p1
  else if p1 ≥ p0 ∧ f1.gas = true then tunedScale deltaT f1 p1 p0
  else some 0

/-! ## Heat exchanger -/

/-- A segment of a heat exchanger. -/
structure Seg where
  /-- `mSegHtcDefault` -/
  htcDefault : ℝ
  /-- `mSegTemperature` -/
  wall : ℝ
  /-- `mMalfSegDegradeValue`, if `mMalfSegDegradeFlag` -/
  degrade : Option ℝ

/-- `mSegHtcDefault` in `initialize`, aspects/fluid/conductor/GunnsFluidHeatExchanger.cpp:212-216: the overrides are the
array `mSegmentHtcOverrides`, if there is one. -/
noncomputable def htcDefault (total : ℝ) (n : ℕ) (overrides : Option (ℕ → ℝ)) (i : ℕ) : ℝ :=
  match overrides with
  | some o => if o i ≥ 0 then o i else total / n
  | none => total / n

/-- `computeHeatTransferCoefficient`, aspects/fluid/conductor/GunnsFluidHeatExchanger.cpp:372-385; `all` is
`mMalfHxDegradeValue`, if `mMalfHxDegradeFlag`. -/
noncomputable def segHtc (all : Option ℝ) (s : Seg) : ℝ :=
  let htc := match s.degrade with
    | some d => s.htcDefault * d
    | none => match all with
      | some d => s.htcDefault * d
      | none => s.htcDefault
  limitRange 0 htc s.htcDefault

/-- `applyTemperatureOverride`, aspects/fluid/conductor/GunnsFluidHeatExchanger.cpp:358-362. -/
noncomputable def override (value : ℝ) (f : Fl) : Fl := if fltEps < value then { f with t := value } else f

/-- The loop over the segments, aspects/fluid/conductor/GunnsFluidHeatExchanger.cpp:338-345, in the order of the flow: the
fluid and `mSegEnergyGain` in this order. A segment is its coefficient and wall temperature. -/
noncomputable def segments (flowRate value : ℝ) : List (ℝ × ℝ) → Fl → Fl × List ℝ
  | [], f => (f, [])
  | s :: ss, f =>
    let r := convective f flowRate s.1 s.2
    let rest := segments flowRate value ss (override value r.1)
    (rest.1, r.2 :: rest.2)

/-- What a heat exchanger has after an update. -/
structure HxOut where
  /-- The internal fluid. -/
  fluid : Fl
  /-- `mSegEnergyGain` -/
  gains : List ℝ
  /-- `mTotalEnergyGain` -/
  total : ℝ
  /-- `mDeltaTemperature` -/
  delta : ℝ

/-- `updateFluid`, aspects/fluid/conductor/GunnsFluidHeatExchanger.cpp:293-352, of the segments with their coefficients and
wall temperatures; `node0` is the temperature of the outflow of node 0. -/
noncomputable def hxUpdate (segs : List (ℝ × ℝ)) (value node0 dt flowRate : ℝ) (f : Fl) : HxOut :=
  if |flowRate| > dblEps ∧ dt > dblEps then
    let order := if flowRate < 0 then segs.reverse else segs
    let r := segments flowRate value order (override value f)
    { fluid := r.1
      gains := if flowRate < 0 then r.2.reverse else r.2
      total := r.2.foldl (· + ·) 0
      delta := r.1.t - node0 }
  else
    { fluid := f
      gains := segs.map (fun _ => 0)
      total := 0
      delta := f.t - node0 }

/-- Coefficients of a segment, aspects/fluid/conductor/GunnsFluidHxDynHtc.hh. -/
structure DynSeg where
  coeff0 : ℝ
  coeff1 : ℝ
  exponent : ℝ
  limit : ℝ

/-- `GunnsFluidHxDynHtcSegment::update`, aspects/fluid/conductor/GunnsFluidHxDynHtc.cpp:68-76. -/
noncomputable def DynSeg.update (s : DynSeg) (mdot degradation : ℝ) : ℝ :=
  let m := min 10 |mdot|
  let htc := if m > fltEps then s.coeff0 + s.coeff1 * m ^ limitRange 0.05 s.exponent 20 else s.coeff0
  limitRange 0 (htc * degradation) s.limit

/-- `mSegsDynHtc` in `initialize`, aspects/fluid/conductor/GunnsFluidHxDynHtc.cpp:243-252, for a configuration without own
coefficients of the segments. -/
noncomputable def dynShare (c : DynSeg) (n : ℕ) : DynSeg :=
  { coeff0 := c.coeff0 / n
    coeff1 := c.coeff1 / n
    exponent := c.exponent
    limit := c.limit / n }

/-- `computeHeatTransferCoefficient`, aspects/fluid/conductor/GunnsFluidHxDynHtc.cpp:311-323, of a segment. -/
noncomputable def dynHtc (all degrade : Option ℝ) (mdot : ℝ) (s : DynSeg) : ℝ :=
  let d := match degrade with
    | some d => d
    | none => match all with
      | some d => d
      | none => 1
  s.update mdot (limitRange 0 d 1)

end Gunns.Heat
