import Verif.Base.Const
import Verif.Math.Interp

/-!
# Selective membrane

Model of `GunnsFluidSelectiveMembrane` (aspects/fluid/source/GunnsFluidSelectiveMembrane.cpp): one compound passes a
membrane between a stream from port 0 to port 1 and a vent at port 2.

Simplifications: doubles are elements of an ordered field.  The compound's saturation pressures and its heat of vaporization
are functions of temperature; its molecular weight is the same on both sides (`validate`, lines 278-283).  The contents of the
nodes are given by the compound's mole and mass fractions and the temperature.  The conductance of the stream
(Verif/Fluid/Utils.lean), the scheduling of outflows and the port directions are left out.  What the nodes are given is a
list of flows, each with the compound's mass fraction.
-/

namespace Gunns.Membrane

open Gunns.Interp (limitRange)

variable {K : Type*} [Field K] [LinearOrder K] [IsStrictOrderedRing K]

/-- `m100EpsilonLimit`, core/GunnsBasicLink.cpp:43. -/
def eps100 : K := 100 * dblEps

/-- The membrane and its compound, aspects/fluid/source/GunnsFluidSelectiveMembrane.hh:141-143. -/
structure Compound (K : Type*) where
  /-- `mAbsorptionCoeff` -/
  coeff : K
  /-- `mMalfMembraneDegradeValue` if `mMalfMembraneDegradeFlag` -/
  degrade : Option K
  /-- molecular weight -/
  weight : K
  /-- saturation pressure of the internal type -/
  satInt : K → K
  /-- saturation pressure of the external type -/
  satExt : K → K
  /-- heat of vaporization of the internal type, kJ/kg -/
  vapor : K → K

/-- What a port sees of its node. -/
structure Port (K : Type*) where
  /-- the node is the ground node -/
  ground : Bool
  /-- `mPotentialVector` -/
  pressure : K
  /-- `getContent()->getMoleFraction` of the compound -/
  moles : K
  /-- `getContent()->getMassFraction` of the compound -/
  fraction : K
  /-- `getContent()->getTemperature` -/
  temp : K

/-- The values of the link, aspects/fluid/source/GunnsFluidSelectiveMembrane.hh:146-155. -/
structure State (K : Type*) where
  /-- `mFlux` -/
  flux : K
  /-- `mFlowRate` -/
  flow : K
  /-- `mMembraneFlowRate` -/
  rate : K
  /-- `mInternalSaturated` -/
  intSat : Bool
  /-- `mExternalSaturated` -/
  extSat : Bool
  /-- `mPhaseChange` -/
  change : Bool
  /-- `mPhaseChangeHeat` -/
  heat : K
  /-- `mSourceVector` -/
  source : ℕ → K

/-- `determineSourcePort(flow, 0, 1)`, core/GunnsFluidLink.cpp:370-382. -/
def sourcePort (port : ℕ → Port K) (flow : K) : ℕ :=
  if (flow < 0 ∧ (port 1).ground = false) ∨ (0 < flow ∧ (port 0).ground = true) then 1 else 0

/-- `computePortPartialP`, aspects/fluid/source/GunnsFluidSelectiveMembrane.hh:224-227. -/
def partialP (p : Port K) : K := p.pressure * p.moles

/-- `mMembraneDeltaP`, GunnsFluidSelectiveMembrane.cpp:345-346. -/
def deltaP (port : ℕ → Port K) (i : ℕ) : K := partialP (port i) - partialP (port 2)

/-- The malfunction, GunnsFluidSelectiveMembrane.cpp:373-375. -/
def degraded (c : Compound K) (rate : K) : K :=
  match c.degrade with
  | some v => rate * (1 - limitRange 0 v 1)
  | none => rate

/-- The port whose pressure drives the flow, GunnsFluidSelectiveMembrane.cpp:363 and 368. -/
def drivingPort (port : ℕ → Port K) (up : ℕ) : ℕ :=
  if 0 < deltaP port up then up else 1 - up

/-- `availableSource`, GunnsFluidSelectiveMembrane.cpp:361-362 and 367. -/
def available (port : ℕ → Port K) (flow : K) (up : ℕ) : K :=
  if 0 < deltaP port up then 99 / 100 * |flow| * (port up).fraction else 10 ^ 6

/-- The rate across the membrane, GunnsFluidSelectiveMembrane.cpp:349-376. -/
def membraneRate (c : Compound K) (port : ℕ → Port K) (flow : K) (up : ℕ) : K :=
  if deltaP port (1 - up) * deltaP port up < 0 then 0
  else degraded c (min (deltaP port (drivingPort port up) * c.coeff) (available port flow up))

/-- `mExternalSaturated`, GunnsFluidSelectiveMembrane.cpp:341-342. -/
def extSaturated (c : Compound K) (port : ℕ → Port K) : Bool :=
  decide (c.satExt (port 2).temp < partialP (port 2))

/-- `mInternalSaturated`, GunnsFluidSelectiveMembrane.cpp:364-365 and 369-370. -/
def intSaturated (c : Compound K) (port : ℕ → Port K) (up : ℕ) : Bool :=
  decide (c.satInt (port (drivingPort port up)).temp < partialP (port (drivingPort port up)))

/-- The source vector, GunnsFluidSelectiveMembrane.cpp:380-389. -/
def sourceVector (flux : K) (up : ℕ) : ℕ → K := fun i =>
  if i = 2 then flux
  else if 0 < flux then (if i = up then -flux else 0)
  else if i = 1 - up then -flux else 0

/-- `mPhaseChangeHeat` with phase change, GunnsFluidSelectiveMembrane.cpp:395-410. -/
def changeHeat (c : Compound K) (port : ℕ → Port K) (rate : K) (intSat extSat : Bool) (up : ℕ) : K :=
  if rate < 0 then
    c.vapor (port 2).temp * rate * 1000 * (if extSat then -1 else 1)
  else
    c.vapor (port up).temp * rate * 1000 * (if intSat then -1 else 1)

/-- The saturation of the stream after a step: it is left as it was when the flow is off,
GunnsFluidSelectiveMembrane.cpp:349-370. -/
def nextIntSat (c : Compound K) (port : ℕ → Port K) (s : State K) (up : ℕ) : Bool :=
  if deltaP port (1 - up) * deltaP port up < 0 then s.intSat else intSaturated c port up

/-- `mPhaseChange`, GunnsFluidSelectiveMembrane.cpp:351 and 372. -/
def nextChange (c : Compound K) (port : ℕ → Port K) (up : ℕ) : Bool :=
  if deltaP port (1 - up) * deltaP port up < 0 then false
  else intSaturated c port up != extSaturated c port

/-- `step` after the conductance, GunnsFluidSelectiveMembrane.cpp:331-411. -/
def step (c : Compound K) (port : ℕ → Port K) (s : State K) : State K :=
  { s with
    rate := membraneRate c port s.flow (sourcePort port s.flux)
    extSat := extSaturated c port
    intSat := nextIntSat c port s (sourcePort port s.flux)
    change := nextChange c port (sourcePort port s.flux)
    heat := if nextChange c port (sourcePort port s.flux) = true then
        changeHeat c port (membraneRate c port s.flow (sourcePort port s.flux))
          (nextIntSat c port s (sourcePort port s.flux)) (extSaturated c port) (sourcePort port s.flux)
      else 0
    source := sourceVector (membraneRate c port s.flow (sourcePort port s.flux) / c.weight) (sourcePort port s.flux) }

/-- A flow that a node is given: `collectInflux` with its rate (negative for a removal), `collectOutflux` with minus its
rate, each with the compound's mass fraction of the fluid. -/
structure Flow (K : Type*) where
  /-- the port -/
  port : ℕ
  /-- mass rate into the node -/
  rate : K
  /-- the compound's mass fraction -/
  fraction : K

/-- The bulk flow with the outflow of the upstream node, `transportFluid`, core/GunnsFluidLink.cpp:236-256. -/
def through (up : ℕ) (flow : K) (fraction : ℕ → K) : List (Flow K) :=
  if eps100 < flow then [⟨0, -flow, fraction 0⟩, ⟨1, flow, fraction up⟩]
  else if flow < -eps100 then [⟨1, flow, fraction 1⟩, ⟨0, -flow, fraction up⟩]
  else []

/-- The flow out of a node: the membrane's fluid if the node's outflow is mixed, else the node's,
GunnsFluidSelectiveMembrane.cpp:518-526 and 531-537. -/
def takeFrom (i : ℕ) (rate : K) (fraction : ℕ → K) : Flow K :=
  if fraction i < 1 then ⟨i, -rate, 1⟩ else ⟨i, -rate, fraction i⟩

/-- The membrane flow, GunnsFluidSelectiveMembrane.cpp:512-542. -/
def across (up : ℕ) (rate : K) (fraction : ℕ → K) : List (Flow K) :=
  if eps100 < rate then [⟨2, rate, 1⟩, takeFrom up rate fraction]
  else if rate < -eps100 then [takeFrom 2 (-rate) fraction, ⟨1 - up, -rate, 1⟩]
  else []

/-- The heat of phase change with its port, GunnsFluidSelectiveMembrane.cpp:544-551. -/
def heatFlows (s : State K) (up : ℕ) : List (ℕ × K) :=
  if s.change = true then [(if eps100 < s.rate then 1 - up else 2, s.heat)] else []

/-- The flows of `transportFlows`, GunnsFluidSelectiveMembrane.cpp:490-552; `weight` is the molecular weight of the upstream
node's outflow and `fraction` the compound's mass fraction of each node's. -/
def transport (port : ℕ → Port K) (s : State K) (weight : K) (fraction : ℕ → K) : List (Flow K) :=
  through (sourcePort port (weight * s.flux)) (weight * s.flux) fraction
    ++ across (sourcePort port s.flux) s.rate fraction

/-- `computeFlux`, GunnsFluidSelectiveMembrane.cpp:558-568. -/
def computeFlux (p0 p1 conductance : K) : K :=
  if |p0 - p1| < max p0 p1 * eps100 then 0 else (p0 - p1) * conductance

end Gunns.Membrane
