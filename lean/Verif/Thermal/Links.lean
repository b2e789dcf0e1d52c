import Verif.Link.Elements

/-!
# Thermal links

`GunnsThermalRadiation`, `GunnsThermalCapacitor` with its heat queues, `GunnsThermalSource` with the panels and the heater,
and `GunnsThermoelectricEffect` with `GunnsThermoelectricDevice`.

Simplifications: doubles are numbers of an ordered field; the state of a two-port link is that of Verif/Link/Elements.lean;
a division of doubles by zero in an initialization is the result `none`.
-/

namespace Gunns.Thermal

open Gunns.Elements

variable {K : Type _} [Field K] [LinearOrder K] [IsStrictOrderedRing K]

/-! ## Radiation -/

/-- `mEffectiveConductivity` after `updateState`, aspects/thermal/GunnsThermalRadiation.cpp:172-206, where it starts as
`mDefaultConductivity` (core/GunnsBasicConductor.cpp:204). -/
def radiationConductivity (view conductivity : K) (t : Two K) : K :=
  if |t.pot 0 - t.pot 1| > dblEps then
    view * conductivity * (t.pot 0 * t.pot 0 * t.pot 0 * t.pot 0 - t.pot 1 * t.pot 1 * t.pot 1 * t.pot 1) /
      (t.pot 0 - t.pot 1)
  else conductivity

/-- `step` of a radiation link, core/GunnsBasicConductor.cpp:196-215. -/
def radiationStep (view conductivity : K) (blk : Option K) (t : Two K) : Two K :=
  conductorStep (radiationConductivity view conductivity t) blk t

/-! ## Capacitor -/

/-- `NUM_EXT_HEATFLUXES`, aspects/thermal/GunnsThermalCapacitor.hh:137. -/
def numHeat : Nat := 15

/-- `mSumExternalHeatFluxes`, aspects/thermal/GunnsThermalCapacitor.cpp:223-229. -/
def sumHeat (heat : Nat → K) : K := loop (fun i s => s + heat i) numHeat 0

/-- `updateState`, aspects/thermal/GunnsThermalCapacitor.cpp:220-256; `fixed` is `mOverrideVector[0]`. -/
def heatUpdate (cap dt : K) (fixed : Bool) (heat : Nat → K) (t : Two K) : Two K :=
  if cap > dblEps ∧ fixed = false then { t with pot := t.pot.set 0 (t.pot 0 + sumHeat heat * dt / cap) }
  else t

/-- `step` of a thermal capacitor, core/GunnsBasicCapacitor.cpp:200-216 without the capacitance edit. -/
def heatCapacitorStep (cap dt : K) (fixed : Bool) (heat : Nat → K) (t : Two K) : Two K :=
  capacitorStep cap dt (heatUpdate cap dt fixed heat t)

/-- A queue: its values, the newest first. -/
abbrev HeatQueue (K : Type _) := List K

/-- `SimBusQutils::getAverage`, ms-utils/software/SimBus/SimBusQutils.cpp:49-78. -/
def average (q : HeatQueue K) : K := q.foldl (· + ·) 0 / q.length

/-- `stepPreSolver`, aspects/thermal/GunnsThermalCapacitorHeatQueues.cpp:171-178, `setExternalHeatFlux`
(GunnsThermalCapacitor.cpp:279-284). -/
def takeQueues (queues : Nat → HeatQueue K) (heat : Nat → K) : Nat → K :=
  fun i => if i < numHeat ∧ (queues i).length > 0 then average (queues i) else heat i

/-! ## Sources -/

/-- `FRACTION_TOLERANCE`, aspects/thermal/GunnsThermalSource.cpp:133. -/
def fractionTolerance : K := 11 / 1000

/-- `validate` of a source with `ports` ports, aspects/thermal/GunnsThermalSource.cpp:247-281: true if nothing is thrown. -/
def sourceValid (ports : Nat) (fractions : List K) (demanded : K) : Bool :=
  if fractions = [] then false
  else if ports ≠ fractions.length then false
  else if demanded < 0 then false
  else if fractions.any (fun f => ¬(0 ≤ f ∧ f ≤ 1)) then false
  else if |1 - fractions.foldl (· + ·) 0| > fractionTolerance then false
  else true

/-- `mFlux` in `step`, aspects/thermal/GunnsThermalSource.cpp:308-319; `forced` is the value of the flux override and `blk`
of the blockage, if the malfunctions are on. -/
def sourceFlux (tuning demanded : K) (forced blk : Option K) : K :=
  match forced with
  | some v => v
  | none => match blk with
    | some b => tuning * demanded * (1 - b)
    | none => tuning * demanded

/-- `buildSourceVector`, aspects/thermal/GunnsThermalSource.cpp:351-360. -/
def sourceTerms (fractions : List K) (flux : K) : List K := fractions.map (fun f => f * flux)

/-- `updateState` of a panel, aspects/thermal/GunnsThermalPanel.cpp:192-200: the demanded flux. -/
def panelFlux (absorptivity area incident : K) : K := absorptivity * area * incident

/-- `mIncidentHeatFluxPerArea` in `initialize` of a panel, aspects/thermal/GunnsThermalPanel.cpp:153, after `validate`
(:165-174); `none` where it is not a number: the checks allow a panel without area or absorptivity. -/
def panelIncident (absorptivity area demanded : K) : Option (Option K) :=
  if ¬(0 ≤ absorptivity ∧ absorptivity ≤ 1) then none
  else if area < 0 then none
  else if absorptivity * area = 0 then some none
  else some (some (demanded / (absorptivity * area)))

/-- `updateState` of a multi-panel, aspects/thermal/GunnsThermalMultiPanel.cpp:241-254: the demanded flux. -/
def multiPanelFlux (absorptivity view incident : Nat → K) (area : K) : K :=
  loop (fun i s => s + absorptivity i * view i * incident i) 5 0 * area

/-! ## Thermoelectric effect -/

/-- Configuration, aspects/thermal/GunnsThermoelectricEffect.cpp:36-68. -/
structure PeltierConfig (K : Type _) where
  /-- `mNumThermocouples` -/
  count : K
  /-- `mGeometryFactor` -/
  geometry : K
  /-- `mElectricalResistivityCoeff` -/
  rho0 : K
  rho1 : K
  /-- `mSeebeckCoeff` -/
  seebeck0 : K
  seebeck1 : K
  seebeck2 : K
  /-- `mThermalConductivityCoeff` -/
  cond0 : K
  cond1 : K
  cond2 : K
  /-- `mEndPlateThermalConductance` -/
  plate : K
  /-- `mMinTemperature` -/
  low : K
  /-- `mMaxTemperature` -/
  high : K

/-- Coefficients after `initialize`, aspects/thermal/GunnsThermoelectricEffect.cpp:176-194. -/
structure Peltier (K : Type _) where
  /-- `mResistanceCoeffs` -/
  r0 : K
  r1 : K
  /-- `mSeebeckCoeffs` -/
  s0 : K
  s1 : K
  s2 : K
  /-- `mThermalConductanceCoeffs` -/
  k0 : K
  k1 : K
  k2 : K
  low : K
  high : K

/-- The checks of the configuration in `validate`, aspects/thermal/GunnsThermoelectricEffect.cpp:218-240. -/
def PeltierConfig.valid (c : PeltierConfig K) : Bool :=
  if c.count < 1 / 2 then false
  else if c.geometry < dblEps then false
  else if c.plate < 0 then false
  else if c.low < dblEps then false
  else if c.high ≤ c.low then false
  else true

/-- `initialize`, aspects/thermal/GunnsThermoelectricEffect.cpp:176-194. With end plates and no constant term of the
conductivity, the division by zero gives infinity and its inverse zero. -/
def PeltierConfig.make (c : PeltierConfig K) : Peltier K :=
  let twoN := 2 * c.count
  let k0 := twoN * c.geometry * c.cond0
  { r0 := twoN * c.rho0 / c.geometry
    r1 := twoN * c.rho1 / c.geometry
    s0 := twoN * c.seebeck0
    s1 := twoN * c.seebeck1
    s2 := twoN * c.seebeck2
    k0 := if c.plate > dblEps then if k0 = 0 then 0 else 1 / (1 / k0 + 2 / c.plate) else k0
    k1 := twoN * c.geometry * c.cond1
    k2 := twoN * c.geometry * c.cond2
    low := c.low
    high := c.high }

/-- What `update` gives. -/
structure PeltierOut (K : Type _) where
  /-- `mThermalConductance` -/
  conductance : K
  /-- `mElectricalConductance` -/
  electrical : K
  /-- `mHeatFluxThru` -/
  thru : K
  /-- `mHeatFluxHot` -/
  heatHot : K
  /-- `mHeatFluxCold` -/
  heatCold : K
  /-- `mVoltage` -/
  voltage : K

/-- `update`, aspects/thermal/GunnsThermoelectricEffect.cpp:267-325; `scalar` is the malfunction's, if it is on. -/
def Peltier.update (p : Peltier K) (scalar : Option K) (current hot cold : K) : PeltierOut K :=
  let hotT := limitRange p.low hot p.high
  let coldT := limitRange p.low cold p.high
  let dT := hotT - coldT
  let dT2 := hotT * hotT - coldT * coldT
  let dT3 := hotT * hotT * hotT - coldT * coldT * coldT
  let avgT := 1 / 2 * (coldT + hotT)
  let mean := fun a b c : K => if |dT| > dblEps then a + (dT2 / dT * (b / 2) + dT3 / dT * (c / 3)) else a
  let conductance := mean p.k0 p.k1 p.k2
  let scale := match scalar with
    | some s => max 0 s
    | none => 1
  let seebeckAvg := mean p.s0 p.s1 p.s2 * scale
  let seebeckHot := (p.s0 + p.s1 * hotT + p.s2 * hotT * hotT) * scale
  let seebeckCold := (p.s0 + p.s1 * coldT + p.s2 * coldT * coldT) * scale
  let electrical := 1 / max (p.r0 + p.r1 * avgT) dblEps
  let joule := current * current / electrical
  { conductance := conductance
    electrical := electrical
    thru := conductance * (hot - cold)
    heatHot := joule / 2 - current * hotT * seebeckHot
    heatCold := joule / 2 + current * coldT * seebeckCold
    voltage := seebeckAvg * dT }

/-- `step` of the device, aspects/thermal/GunnsThermoelectricDevice.cpp:177-196. -/
def deviceStep (p : Peltier K) (scalar : Option K) (current : K) (blk : Option K) (t : Two K) : Two K :=
  let o := p.update scalar current (t.pot 0) (t.pot 1)
  let t := conductorStep o.conductance blk t
  { t with src := (t.src.set 0 o.heatHot).set 1 o.heatCold }

end Gunns.Thermal
