import Verif.Interop.Bus
import Verif.Fluid.Mixture
import Verif.Math.Interp

/-!
# The distributed fluid interface link

Model of `GunnsFluidDistributedIf` (core/GunnsFluidDistributedIf.cpp and .hh), on top of the bus in Verif.Interop.Bus.

Simplifications, besides those of the bus:
* a fluid is its mass fractions, the mole fractions of its trace compounds, and its energy, which is the temperature or
  the specific enthalpy as `mUseEnthalpy` says; `computeTemperature` finds the temperature of an enthalpy;
* the arrays for temporary use are zero before each use; in the code they have their last contents if a conversion of
  fractions leaves its output as it is;
* received data have the sizes of the interface that receives them;
* notifications, the copy of the fluid for display and the blockage of the base class's malfunction override are left out.
-/

namespace Gunns.Interop

open Gunns.Mixture
open Gunns.Interp (limitRange)

variable {K : Type _} [Field K] [LinearOrder K] [IsStrictOrderedRing K]

/-- The fluid configuration of a network: numbers of compounds and of trace compounds, and molecular weights. -/
structure IfConfig (K : Type _) where
  nF : Nat
  nT : Nat
  mw : Nat → K

/-- A fluid. -/
structure Body (K : Type _) where
  /-- mass fractions -/
  frac : Nat → K
  /-- mole fractions of the trace compounds, relative to the bulk fluid -/
  tc : Nat → K
  energy : K

/-- Attributes of the link, its node and the capacitor link of the node. -/
structure Link (K : Type _) where
  cfg : IfConfig K
  /-- `mInterface` -/
  bus : Bus K
  /-- `mWorkFlowState` -/
  workFlow : Given K
  /-- `mWorkFluidState` -/
  workFluid : Given K
  /-- the node's `getContent()` -/
  content : Body K
  /-- the node's `getPotential()` (kPa) -/
  pressure : K
  /-- the node's `getInflow()` -/
  inflow : Body K
  /-- is the temperature of the inflow above zero? -/
  inflowSet : Bool
  /-- the node's volume -/
  volume : K
  /-- the volume that the capacitor link sets in its next step, if any -/
  edit : Option K
  /-- `mInternalFluid` -/
  internal : Body K
  /-- `mSourcePressure` -/
  sourcePressure : K
  /-- `mDemandFlux` -/
  demandFlux : K
  /-- `mSupplyVolume` -/
  supplyVolume : K
  /-- `mFlux` (kmol/s) -/
  flux : K

/-- `outputFluid` (GunnsFluidDistributedIf.cpp:565-614): the working state and the returned sum. -/
def outputFluid (c : IfConfig K) (b : Body K) (work : Given K) : Given K × K :=
  let mole := massToMole c.nF c.mw b.frac (fun _ => 0)
  let sum := total c.nT b.tc + total c.nF mole
  ({ work with
      energy := b.energy
      fluid := copyFractions work.numFluid (fun i => mole i / sum) c.nF work.fluid
      tc := copyFractions work.numTc (fun i => b.tc i / sum) c.nT work.tc }, sum)

/-- `inputFluid` (GunnsFluidDistributedIf.cpp:425-480): the fluid and the returned sum, `none` if it throws. The fractions
are those of the state for the role, the energy is always that of `mWorkFluidState`. -/
def inputFluid (c : IfConfig K) (demand : Bool) (workFlow workFluid : Given K) (old : Body K) : Option (Body K × K) :=
  let work := if demand then workFluid else workFlow
  let mole := copyFractions c.nF work.fluid work.numFluid (fun _ => 0)
  let sum := total c.nF mole
  if sum < dblEps then none
  else
    let tc := copyFractions c.nT work.tc work.numTc (fun _ => 0)
    some ({ frac := moleToMass c.nF c.mw (fun i => mole i / sum) (fun _ => 0)
            tc := if workFluid.numTc = 0 then old.tc else fun i => tc i / sum
            energy := workFluid.energy }, sum)

/-- `processInputsDemand` (GunnsFluidDistributedIf.cpp:508-522). -/
def processInputsDemand (l : Link K) : Option (Link K) :=
  if l.bus.inDemand = true then
    match getFluidState l.bus l.workFluid with
    | some g =>
      match inputFluid l.cfg true l.workFlow g l.content with
      | some r => some { l with
          workFluid := g
          sourcePressure := g.value * (1 / 1000)
          content := r.1 }
      | none => none
    | none => some { l with sourcePressure := l.pressure }
  else some l

/-- `processInputsSupply` (GunnsFluidDistributedIf.cpp:485-503). -/
def processInputsSupply (l : Link K) : Option (Link K) :=
  if l.bus.inDemand = false then
    match getFlowState l.bus l.workFlow with
    | some g =>
      match inputFluid l.cfg false g l.workFluid l.internal with
      | some r => some { l with
          workFlow := g
          sourcePressure := 0
          internal := r.1
          demandFlux := -l.bus.inD.source * (1 / 1000) * r.2 }
      | none => none
    | none => some { l with
        sourcePressure := 0
        demandFlux := 0 }
  else some { l with demandFlux := 0 }

/-- The roles and the node's volume in `processInputs` (GunnsFluidDistributedIf.cpp:391-405). -/
def inputRole (received : Data K) (l : Link K) : Link K :=
  let b := processInputs { l.bus with inD := received }
  if b.inDemand = true ∧ l.bus.inDemand = false then { l with
    bus := b
    supplyVolume := l.volume
    edit := some 0 }
  else if l.bus.inDemand = true ∧ b.inDemand = false then { l with
    bus := b
    edit := some l.supplyVolume
    supplyVolume := 0 }
  else { l with bus := b }

/-- `processInputs` (GunnsFluidDistributedIf.cpp:389-412); `none` if it throws. -/
def Link.processInputs (received : Data K) (l : Link K) : Option (Link K) :=
  (processInputsDemand (inputRole received l)).bind processInputsSupply

/-- The fluid of the flow in the demand role (GunnsFluidDistributedIf.cpp:641-649,
`checkNegativeFluidFractions` GunnsFluidDistributedIf.cpp:845-865; a mole fraction is negative if the mass fraction is). -/
def useFluid (l : Link K) : Body K :=
  if l.inflowSet = true ∧ (List.range l.cfg.nF).all (fun i => decide (0 ≤ l.inflow.frac i)) = true ∧
      (List.range l.cfg.nT).all (fun i => decide (0 ≤ l.inflow.tc i)) = true then l.inflow
  else l.content

/-- What is sent in `processOutputs` (GunnsFluidDistributedIf.cpp:533-539, with `processOutputsSupply` 620-627 and
`processOutputsDemand` 633-652). -/
def outputState (l : Link K) : Link K :=
  if l.bus.inDemand = true then
    let r := outputFluid l.cfg (useFluid l) l.workFlow
    let g := { r.1 with value := l.flux * 1000 * r.2 }
    { l with
      workFlow := g
      bus := setFlowState g l.bus }
  else
    let r := outputFluid l.cfg l.content l.workFluid
    let g := { r.1 with value := l.pressure * 1000 }
    { l with
      workFluid := g
      bus := setFluidState g l.bus }

/-- `processOutputs` (GunnsFluidDistributedIf.cpp:529-556); the capacitance is that of `outputCapacitance`. -/
def Link.processOutputs (capacitance : K) (l : Link K) : Link K :=
  let l := outputState l
  let b := Interop.processOutputs capacitance l.bus
  if b.inDemand = true ∧ l.bus.inDemand = false then { l with
    bus := b
    supplyVolume := l.volume
    edit := some 0 }
  else { l with bus := b }

/-- The edit of the volume in the step of the capacitor link (GunnsFluidCapacitor.cpp:271-274). -/
def Link.editStep (l : Link K) : Link K :=
  match l.edit with
  | some v => { l with
      volume := v
      edit := none }
  | none => l

/-- `outputCapacitance` (GunnsFluidDistributedIf.cpp:660-687); of the other links, the supplied capacitances and the rises
of their nodes' potentials, and the rise of our own. -/
def outputCapacitance (netCap supplied ourDp : K) (others : List (K × K)) : K :=
  max 0 (others.foldl (fun c o =>
    if o.1 > dblEps then if o.2 > dblEps then c - o.1 * (o.2 / max ourDp dblEps) else c else c) (netCap - supplied))

/-- Blockage malfunction. -/
structure Block (K : Type _) where
  on : Bool
  value : K

/-- `mEffectiveConductivity` and `mDemandFluxGain` of `step` (GunnsFluidDistributedIf.cpp:694-732); the gain is left out in
the supply role. -/
def effectiveConductivity (option : Bool) (dt : K) (block : Block K) (b : Bus K) : K :=
  if b.inDemand = true ∧ dt > dblEps then
    let g := (computeDemandLimit dt 0 b).gain
    let c := if b.outD.cap > dblEps ∧ b.inD.cap > dblEps then
        let conductance := g * b.inD.cap / dt
        if option = true ∨ conductance < dblEps then conductance
        else 1 / max (1 / conductance + dt / b.outD.cap) dblEps
      else 1 * b.inD.cap / dt
    if block.on = true then c * (1 - block.value) else c
  else 0

/-- The admittance (GunnsFluidDistributedIf.cpp:735). -/
def admittance (option : Bool) (limit dt : K) (block : Block K) (b : Bus K) : K :=
  limitRange 0 (effectiveConductivity option dt block b) limit

/-- `mSuppliedCapacitance` (GunnsFluidDistributedIf.cpp:741-745). -/
def suppliedCapacitance (a dt : K) (b : Bus K) : K := if b.inDemand = true then a * dt else 0

/-- `mSourceVector[0]` (GunnsFluidDistributedIf.cpp:749). -/
def sourceTerm (a : K) (l : Link K) : K := l.sourcePressure * a + l.demandFlux

/-- `computeFlux` (GunnsFluidDistributedIf.cpp:764-765, GunnsFluidDistributedIf.hh:289-292) at the solution `p`. -/
def linkFlux (a p : K) (l : Link K) : K := -p * a + sourceTerm a l

end Gunns.Interop
