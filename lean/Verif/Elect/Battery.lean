import Verif.Link.Elements

/-!
# The battery link

`GunnsElectBattery` (aspects/electrical/Batt/GunnsElectBattery.cpp) and its cells,
`GunnsElectBatteryCell` (aspects/electrical/Batt/GunnsElectBatteryCell.cpp).

Simplifications, for the whole file:

* doubles are elements of an ordered field, so there is no rounding, no overflow and no NaN;
* the table of open-circuit voltage against state of charge is a function `voc`.  The code uses a
  `TsLinearInterpolator`, modelled in `Verif.Math.Interp`; C36 shows that its answers do not depend on
  the calls before, so that it is a function;
* the array `mCells` of `mNumCells` cells is a list, `mNumCells` its length;
* names, messages, memory management and the checkpoint are left out.
-/

namespace Gunns.Elect

open Gunns.Elements

variable {K : Type _} [Field K] [LinearOrder K] [IsStrictOrderedRing K]

/-- `UnitConversion::SEC_PER_HR`, /repo/ms-utils/math/UnitConversion.cpp:151. -/
def secPerHr : K := 3600

/-- Attributes of a `GunnsElectBatteryCell`, /repo/aspects/electrical/Batt/GunnsElectBatteryCell.hh. -/
structure Cell (K : Type _) where
  /-- `mMalfOpenCircuit` -/
  malfOpen : Bool := false
  /-- `mMalfShortCircuit` -/
  malfShort : Bool := false
  /-- `mMalfCapacityFlag` -/
  malfCapFlag : Bool := false
  /-- `mMalfCapacityValue`, A·hr -/
  malfCapValue : K
  /-- `mMalfThermalRunawayFlag` -/
  runFlag : Bool := false
  /-- `mMalfThermalRunawayDuration`, s -/
  runDuration : K
  /-- `mResistance`, Ohm -/
  resistance : K
  /-- `mMaxCapacity`, A·hr -/
  maxCapacity : K
  /-- `mSoc`, state of charge -/
  soc : K
  /-- `mRunawayPower`, W -/
  runPower : K
  /-- `mRunawayPowerRate`, W/s -/
  runRate : K
deriving DecidableEq

/-- The cells made by `GunnsElectBattery::initialize`, GunnsElectBattery.cpp:159-166, with
`GunnsElectBatteryCell::initialize` and `validate`, GunnsElectBatteryCell.cpp:148-198; `none` is the
exception.  The name is never empty there. -/
def Cell.init (resistance maxCapacity soc : K) : Option (Cell K) :=
  if resistance < 0 then none
  else if maxCapacity < dblEps then none
  else if soc < 0 ∨ 1 < soc then none
  else some
    { malfCapValue := 0
      runDuration := 0
      resistance := resistance
      maxCapacity := maxCapacity
      soc := soc
      runPower := 0
      runRate := 0 }

/-- Thermal runaway in `updateSoc`, GunnsElectBatteryCell.cpp:224-235: the cell with its new runaway
power, and the current of the runaway. -/
def Cell.runaway (voc : K → K) (capacity dt : K) (c : Cell K) : Cell K × K :=
  if c.runFlag = true ∧ c.soc > 0 then
    let voltage := max dblEps (voc c.soc)
    let rate :=
      if c.runPower = 0 then
        let energyEstimate := c.soc * capacity * voltage * secPerHr
        let duration2 := c.runDuration * c.runDuration
        2 * energyEstimate / max dblEps duration2
      else c.runRate
    let power := c.runPower + rate * dt
    ({ c with
        runRate := rate
        runPower := power }, power / voltage)
  else (c, 0)

/-- `GunnsElectBatteryCell::updateSoc`, GunnsElectBatteryCell.cpp:213-246. -/
def Cell.updateSoc (voc : K → K) (current dt : K) (c : Cell K) : Cell K :=
  let c :=
    if c.malfShort = true then
      { c with
        soc := 0 }
    else if c.malfOpen = false then
      let capacity := if c.malfCapFlag = true then c.malfCapValue else c.maxCapacity
      let c :=
        if capacity > dblEps then
          let r := c.runaway voc capacity dt
          { r.1 with
            soc := r.1.soc - (current + r.2) * dt / capacity / secPerHr }
        else
          { c with
            soc := 0 }
      { c with
        soc := limitRange 0 c.soc 1 }
    else c
  if 0 = c.soc ∨ c.runFlag = false then
    { c with
      runPower := 0
      runRate := 0 }
  else c

/-- `getEffectiveSoc`, GunnsElectBatteryCell.cpp:254-261. -/
def Cell.effSoc (c : Cell K) : K := if c.malfOpen = true ∨ c.malfShort = true then 0 else c.soc

/-- `getEffectiveCapacity`, GunnsElectBatteryCell.cpp:269-278. -/
def Cell.effCapacity (c : Cell K) : K :=
  if c.malfOpen = true ∨ c.malfShort = true then 0
  else if c.malfCapFlag = true then c.malfCapValue
  else c.maxCapacity

/-- `getEffectiveResistance`, GunnsElectBatteryCell.cpp:286-295. -/
def Cell.effResistance (c : Cell K) : K :=
  if c.malfShort = true then dblEps
  else if c.malfOpen = true ∨ c.runFlag = true then 1 / dblEps
  else c.resistance

/-- `getEffectiveVoltage`, GunnsElectBatteryCell.cpp:306-313. -/
def Cell.effVoltage (voc : K → K) (c : Cell K) : K :=
  if c.malfOpen = true ∨ c.malfShort = true ∨ c.runFlag = true then 0 else voc c.soc

/-- `setMalfThermalRunaway`, GunnsElectBatteryCell.hh:218-222. -/
def Cell.setRunaway (flag : Bool) (duration : K) (c : Cell K) : Cell K :=
  { c with
    runFlag := flag
    runDuration := duration }

/-- Attributes of a `GunnsElectBattery`, with those of its base classes that it uses,
/repo/aspects/electrical/Batt/GunnsElectBattery.hh. -/
structure Battery (K : Type _) where
  /-- `mCells` -/
  cells : List (Cell K)
  /-- `mMalfThermalRunawayFlag` -/
  runFlag : Bool := false
  /-- `mMalfThermalRunawayDuration`, s -/
  runDuration : K
  /-- `mMalfThermalRunawayInterval`, s -/
  runInterval : K
  /-- `mCellsInParallel` -/
  parallel : Bool
  /-- `mInterconnectResistance`, Ohm -/
  interconnect : K
  /-- `mThermalRunawayCell` -/
  runCell : Nat := 0
  /-- `mThermalRunawayTimer`, s -/
  runTimer : K
  /-- `mEffectiveConductivity` of `GunnsBasicConductor`, 1/Ohm -/
  conductivity : K
  /-- `mSourcePotential` of `GunnsBasicPotential`, V -/
  source : K
  /-- `mSystemConductance` of `GunnsBasicConductor`, 1/Ohm -/
  sysCond : K
  /-- `mSoc` -/
  soc : K
  /-- `mCapacity`, A·hr -/
  capacity : K
  /-- `mHeat`, W -/
  heat : K
deriving DecidableEq

/-- The thermal runaway malfunction in `updateState`, GunnsElectBattery.cpp:248-272. -/
def Battery.sequenceRunaway (dt : K) (b : Battery K) : Battery K :=
  if b.runFlag = true then
    let b :=
      if b.runCell ≥ b.cells.length then
        { b with
          runCell := 0 }
      else b
    let b :=
      { b with
        cells := b.cells.modify b.runCell (Cell.setRunaway true b.runDuration)
        runTimer := b.runTimer + dt }
    if b.runTimer ≥ b.runInterval then
      { b with
        runTimer := 0
        runCell := b.runCell + 1 }
    else b
  else
    let b :=
      if b.runTimer > 0 then
        { b with
          cells := b.cells.map (Cell.setRunaway false 0) }
      else b
    { b with
      runTimer := 0
      runCell := 0 }

/-- `computeParallelResistance`, GunnsElectBattery.cpp:298-306. -/
def parallelResistance (cells : List (Cell K)) : K :=
  let conductance := cells.foldl (fun g c => g + 1 / max c.effResistance dblEps) 0
  1 / max conductance dblEps

/-- `computeSeriesResistance`, GunnsElectBattery.cpp:313-321. -/
def seriesResistance (cells : List (Cell K)) : K :=
  let resistance := cells.foldl (fun r c => r + c.effResistance) 0
  max resistance dblEps

/-- `computeParallelVoc`, GunnsElectBattery.cpp:328-339. -/
def parallelVoc (voc : K → K) (cells : List (Cell K)) : K :=
  cells.foldl (fun v c => if c.effVoltage voc > v then c.effVoltage voc else v) 0

/-- `computeSeriesVoc`, GunnsElectBattery.cpp:346-354. -/
def seriesVoc (voc : K → K) (cells : List (Cell K)) : K :=
  cells.foldl (fun v c => v + c.effVoltage voc) 0

/-- `updateState`, GunnsElectBattery.cpp:246-291. -/
def Battery.updateState (voc : K → K) (dt : K) (b : Battery K) : Battery K :=
  let b := b.sequenceRunaway dt
  let resistance :=
    if b.parallel = true then b.interconnect + parallelResistance b.cells
    else b.interconnect + seriesResistance b.cells
  { b with
    conductivity := 1 / resistance
    source := if b.parallel = true then parallelVoc voc b.cells else seriesVoc voc b.cells }

/-- `step` of the link: `GunnsBasicConductor::step`, /repo/core/GunnsBasicConductor.cpp:196-215, whose
conductance is that of `systemConductance`; `blk` is the blockage if that malfunction is on. -/
def Battery.step (voc : K → K) (blk : Option K) (dt : K) (b : Battery K) : Battery K :=
  let b := b.updateState voc dt
  { b with
    sysCond := systemConductance b.conductivity blk }

/-- `updateCells`, GunnsElectBattery.cpp:375-394.  `flux` is `mFlux`. -/
def Battery.updateCells (voc : K → K) (flux dt : K) (b : Battery K) : Battery K :=
  let count := b.cells.foldl (fun n c => if c.effSoc > dblEps then n + 1 else n) 0
  if count > 0 then
    let current := flux / (count : Nat)
    { b with
      cells := b.cells.map (Cell.updateSoc voc current dt) }
  else b

/-- `updateOutputs`, GunnsElectBattery.cpp:399-417, without the copies of the flux and of the
potential. -/
def Battery.updateOutputs (flux : K) (b : Battery K) : Battery K :=
  let soc := b.cells.foldl (fun s c => s + c.effSoc) 0
  let cap := b.cells.foldl (fun s c => s + c.effCapacity) 0
  let heat := b.cells.foldl (fun s c => s + c.runPower) 0
  { b with
    soc := if b.cells.length > 0 then soc / (b.cells.length : Nat) else 0
    capacity := cap
    heat := heat + flux * flux / max b.sysCond dblEps }

/-- `updateFlux`, GunnsElectBattery.cpp:362-366. -/
def Battery.updateFlux (voc : K → K) (flux dt : K) (b : Battery K) : Battery K :=
  (b.updateCells voc flux dt).updateOutputs flux

/-- Configuration and input data that `initialize` looks at. -/
structure BatteryConfig (K : Type _) where
  /-- `mNumCells` -/
  numCells : Nat
  /-- `mCellsInParallel` -/
  parallel : Bool
  /-- `mCellResistance` -/
  cellResistance : K
  /-- `mInterconnectResistance` -/
  interconnect : K
  /-- `mMaxCapacity` -/
  maxCapacity : K
  /-- `mSoc` -/
  soc : K
  /-- `mMalfThermalRunawayFlag` -/
  runFlag : Bool := false
  /-- `mMalfThermalRunawayDuration` -/
  runDuration : K
  /-- `mMalfThermalRunawayInterval` -/
  runInterval : K

/-- `initialize` with `validate`, GunnsElectBattery.cpp:136-171, 212-238; `none` is the exception.
The table is there, the base classes are initialised, the flux is zero and the system conductance is
that of a link never stepped. -/
def Battery.init (f : BatteryConfig K) : Option (Battery K) :=
  if f.interconnect < 0 then none
  else if f.numCells < 1 then none
  else if f.soc < 0 ∨ 1 < f.soc then none
  else
    match Cell.init f.cellResistance (f.maxCapacity / (f.numCells : Nat)) f.soc with
    | none => none
    | some c => some <| Battery.updateOutputs 0
        { cells := List.replicate f.numCells c
          runFlag := f.runFlag
          runDuration := f.runDuration
          runInterval := f.runInterval
          parallel := f.parallel
          interconnect := f.interconnect
          runTimer := 0
          conductivity := 0
          source := 0
          sysCond := 0
          soc := 0
          capacity := 0
          heat := 0 }

/-- What can happen to a battery: a step of its network, or a user setting a malfunction (the
malfunction attributes are public). -/
inductive BattOp (K : Type _) where
  /-- `step(dt)`, the solution of the network with the flux `flux` of this link, `computeFlows(dt)` -/
  | step (blk : Option K) (dt flux : K)
  /-- `setMalfOpenCircuit` of cell `i`, GunnsElectBatteryCell.hh:182-185 -/
  | setOpen (i : Nat) (flag : Bool)
  /-- `setMalfShortCircuit` of cell `i`, GunnsElectBatteryCell.hh:193-196 -/
  | setShort (i : Nat) (flag : Bool)
  /-- `setMalfCapacity` of cell `i`, GunnsElectBatteryCell.hh:205-209 -/
  | setCapacity (i : Nat) (flag : Bool) (value : K)
  /-- `setMalfThermalRunaway` of cell `i`, GunnsElectBatteryCell.hh:218-222 -/
  | setRunaway (i : Nat) (flag : Bool) (duration : K)
  /-- writing the thermal runaway malfunction of the battery -/
  | setBattRunaway (flag : Bool) (duration interval : K)

/-- One operation. -/
def Battery.op (voc : K → K) (o : BattOp K) (b : Battery K) : Battery K :=
  match o with
  | .step blk dt flux => (b.step voc blk dt).updateFlux voc flux dt
  | .setOpen i flag => { b with
      cells := b.cells.modify i fun c => { c with malfOpen := flag } }
  | .setShort i flag => { b with
      cells := b.cells.modify i fun c => { c with malfShort := flag } }
  | .setCapacity i flag value => { b with
      cells := b.cells.modify i fun c => { c with malfCapFlag := flag, malfCapValue := value } }
  | .setRunaway i flag duration => { b with
      cells := b.cells.modify i (Cell.setRunaway flag duration) }
  | .setBattRunaway flag duration interval => { b with
      runFlag := flag
      runDuration := duration
      runInterval := interval }

/-- A history of operations. -/
def Battery.run (voc : K → K) (os : List (BattOp K)) (b : Battery K) : Battery K :=
  os.foldl (fun b o => b.op voc o) b

end Gunns.Elect
