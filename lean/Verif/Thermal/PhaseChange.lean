import Verif.Link.Elements

/-!
# The thermal phase-change battery

`GunnsThermalPhaseChangeBattery` (aspects/thermal/GunnsThermalPhaseChangeBattery.cpp).

Simplifications, for the whole file:

* doubles are elements of an ordered field, so there is no rounding, no overflow and no NaN;
* the node at the port is seen through `mPotentialVector[0]`, which the network overwrites with its
  solution between `step` and `computeFlows`; the flux reported to the node is `flux`;
* port re-mapping, names, messages and the checkpoint are left out.
-/

namespace Gunns.Thermal

open Gunns.Elements

variable {K : Type _} [Field K] [LinearOrder K] [IsStrictOrderedRing K]

/-- `UnitConversion::UNIT_PER_KILO`, /repo/ms-utils/math/UnitConversion.cpp:111-112. -/
def unitPerKilo : K := 1000

/-- `UnitConversion::KILO_PER_UNIT`, /repo/ms-utils/math/UnitConversion.cpp:103-104. -/
def kiloPerUnit : K := 1 / 1000

/-- `mIdealAdmittance`, GunnsThermalPhaseChangeBattery.cpp:23. -/
def idealAdmittance : K := 1000000

/-- `GunnsThermalCapacitor::NUM_EXT_HEATFLUXES`, /repo/aspects/thermal/GunnsThermalCapacitor.hh:137. -/
def numExt : Nat := 15

/-- Attributes of `GunnsThermalPhaseChangeBattery`, GunnsThermalPhaseChangeBattery.hh:136-180, with those
of the base link it uses. -/
structure Pcb (K : Type _) where
  /-- `mMalfHotPhaseLeakFlag` -/
  leakFlag : Bool
  /-- `mMalfHotPhaseLeakRate`, kg/s -/
  leakRate : K
  /-- `mPhaseChangeTemperature`, K -/
  tpc : K
  /-- `mPhaseChangeHeat`, J/g -/
  heat : K
  /-- `mHotPhaseSpecificHeat`, J/g/K -/
  hotCp : K
  /-- `mColdPhaseSpecificHeat`, J/g/K -/
  coldCp : K
  /-- `mStructureCapacitance`, J/K -/
  struct : K
  /-- `mMass`, kg -/
  mass : K
  /-- `mTemperature`, K -/
  temp : K
  /-- `mHotPhaseFraction` -/
  frac : K
  /-- `mActualLeakRate`, kg/s -/
  leak : K
  /-- `mExternalHeatFlux`, W -/
  ext : Nat → K
  /-- `mSumExternalHeatFluxes`, W -/
  sumExt : K
  /-- `mAdmittance`, W/K -/
  adm : K
  /-- `mAdmittanceMatrix[0]` -/
  admMatrix : K
  /-- `mAdmittanceUpdate` -/
  admUpdate : Bool
  /-- `mSourceVector[0]` -/
  source : K
  /-- `mPotentialVector[0]` -/
  pot : K
  /-- `mOverrideVector[0]` -/
  override : Bool
  /-- `mPotentialDrop` -/
  drop : K
  /-- `mFlux`, W -/
  flux : K
  /-- `mPower`, W -/
  power : K

/-- `setTemperature`, GunnsThermalPhaseChangeBattery.cpp:318-325. -/
def Pcb.setTemperature (t : K) (s : Pcb K) : Pcb K :=
  { s with
    pot := t
    temp := t }

/-- Config and input data, GunnsThermalPhaseChangeBattery.hh:45-110. -/
structure PcbData (K : Type _) where
  leakFlag : Bool
  leakRate : K
  tpc : K
  heat : K
  hotCp : K
  coldCp : K
  struct : K
  mass : K
  temp : K
  frac : K

/-- `initialize` and `validate`, GunnsThermalPhaseChangeBattery.cpp:139-223; `none` is the exception. -/
def Pcb.init (d : PcbData K) : Option (Pcb K) :=
  if d.tpc < dblEps ∨ d.heat < dblEps ∨ d.hotCp < dblEps ∨ d.coldCp < dblEps ∨ d.struct < dblEps ∨
      d.mass < dblEps ∨ d.temp < dblEps ∨ ¬ (0 ≤ d.frac ∧ d.frac ≤ 1) ∨ d.leakRate < 0 then none
  else some (Pcb.setTemperature d.temp
    { leakFlag := d.leakFlag
      leakRate := d.leakRate
      tpc := d.tpc
      heat := d.heat
      hotCp := d.hotCp
      coldCp := d.coldCp
      struct := d.struct
      mass := d.mass
      temp := 0
      frac := d.frac
      leak := 0
      ext := fun _ => 0
      sumExt := 0
      adm := 0
      admMatrix := 0
      admUpdate := false
      source := 0
      pot := 0
      override := false
      drop := 0
      flux := 0
      power := 0 })

/-- `computeCapacitance`, GunnsThermalPhaseChangeBattery.cpp:301-310. -/
def Pcb.capacitance (s : Pcb K) : K :=
  if 0 = s.frac then s.struct + s.mass * s.coldCp * unitPerKilo
  else if 1 = s.frac then s.struct + s.mass * s.hotCp * unitPerKilo
  else s.struct

/-- `sumExternalFluxes`, GunnsThermalPhaseChangeBattery.cpp:468-474. -/
def Pcb.sumExternalFluxes (s : Pcb K) : Pcb K :=
  { s with sumExt := loop (fun i acc => acc + s.ext i) numExt 0 }

/-- `updateState`, GunnsThermalPhaseChangeBattery.cpp:271-291. -/
def Pcb.updateState (dt : K) (s : Pcb K) : Pcb K :=
  let s := { s with frac := limitRange 0 s.frac 1 }
  let capacitance := s.capacitance
  let s := s.sumExternalFluxes
  let s := { s with adm := dblEps }
  if s.override = true then s
  else if capacitance > s.struct then
    let s := { s with adm := capacitance / max dt dblEps }
    s.setTemperature (s.pot + s.sumExt * dt / capacitance)
  else
    let s := { s with adm := idealAdmittance }
    s.setTemperature (s.tpc + s.sumExt / s.adm)

/-- `step`, GunnsThermalPhaseChangeBattery.cpp:244-258. -/
def Pcb.step (dt : K) (s : Pcb K) : Pcb K :=
  let s := s.updateState dt
  let s := if |s.admMatrix - s.adm| > 0 then { s with admMatrix := s.adm, admUpdate := true } else s
  { s with source := s.pot * s.admMatrix }

/-- `updatePhaseFraction`, GunnsThermalPhaseChangeBattery.cpp:402-422. -/
def Pcb.updatePhaseFraction (dt : K) (s : Pcb K) : Pcb K :=
  if 0 = s.frac ∧ s.temp > s.tpc then
    let heat := s.coldCp * s.mass * (s.temp - s.tpc)
    let dm := heat / s.heat
    { s with frac := s.frac + dm / s.mass }
  else if 1 = s.frac ∧ s.temp < s.tpc then
    let heat := s.hotCp * s.mass * (s.temp - s.tpc)
    let dm := heat / s.heat
    { s with frac := s.frac + dm / s.mass }
  else if 0 < s.frac ∧ 1 > s.frac then
    let dm := kiloPerUnit * s.power * dt / s.heat
    { s with frac := s.frac + dm / s.mass }
  else s

/-- `updateMassLeak`, GunnsThermalPhaseChangeBattery.cpp:431-452. -/
def Pcb.updateMassLeak (dt : K) (s : Pcb K) : Pcb K :=
  let s := { s with leakRate := max 0 s.leakRate }
  if s.leakFlag = true ∧ s.frac > 0 ∧ dt > 0 then
    let hotMass := s.mass * s.frac
    let minMass := max 0 (min (hotMass - dblEps) (s.mass - 2 * dblEps))
    let leak := min s.leakRate (minMass / dt)
    let hotMass := hotMass - leak * dt
    let mass := s.mass - leak * dt
    { s with
      leak := leak
      mass := mass
      frac := hotMass / mass }
  else { s with leak := 0 }

/-- `updateFlux`, GunnsThermalPhaseChangeBattery.cpp:381-392. -/
def Pcb.updateFlux (dt : K) (s : Pcb K) : Pcb K :=
  let s := { s with
    heat := max s.heat dblEps
    mass := max s.mass (dblEps * 3) }
  let s := s.updatePhaseFraction dt
  let s := s.updateMassLeak dt
  { s with frac := limitRange 0 s.frac 1 }

/-- `computeFlows`, GunnsThermalPhaseChangeBattery.cpp:332-345, with `computeFlux`,
GunnsThermalPhaseChangeBattery.hh:266-269, and `computePower`, GunnsThermalPhaseChangeBattery.cpp:352-355. -/
def Pcb.computeFlows (dt : K) (s : Pcb K) : Pcb K :=
  let s := { s with
    temp := s.pot
    drop := s.pot }
  let s := { s with flux := s.drop * s.admMatrix - s.source }
  let s := { s with power := s.flux + s.sumExt }
  s.updateFlux dt

/-- What the network does with the link in one major step of one minor step, /repo/core/Gunns.cpp:736-804:
`step`, a solution that gives the node the potential `p`, `computeFlows`. -/
def Pcb.cycle (dt p : K) (s : Pcb K) : Pcb K :=
  Pcb.computeFlows dt { s.step dt with pot := p }

end Gunns.Thermal
