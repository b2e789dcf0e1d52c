import Verif.Fluid.Crew
import Verif.Fluid.Trace

/-!
# The fire source

Model of `GunnsFluidFireSource` (aspects/fluid/source/GunnsFluidFireSource.cpp): a link that burns at a given heat in a cabin, takes
oxygen from it and gives it carbon dioxide, water, trace compounds and heat, as long as there is enough oxygen.

Simplifications: doubles are elements of an ordered field.  Commands to move the port are left out.  `updateState` is the empty one of
the base class.  The network has trace compounds; one without is the case of no types.  The port directions do not enter what the
cabin is given and are left out.
-/

namespace Gunns.Fire

open Gunns.Fluid Gunns.Crew

variable {K : Type*} [Field K] [LinearOrder K] [IsStrictOrderedRing K]

/-- Configuration, GunnsFluidFireSource.hh:45-49, and where oxygen, carbon dioxide and water are in the fluid
(GunnsFluidFireSource.cpp:194-196). -/
structure Config (K : Type*) where
  /-- `mFireO2ConsumpRate` -/
  o2 : K
  /-- `mFireCO2ProductRate` -/
  co2 : K
  /-- `mFireH2OProductRate` -/
  h2o : K
  /-- `mFireMinReqO2` -/
  least : K
  /-- `mTraceCompoundRates` -/
  trace : Nat → K
  /-- the trace compounds of the network -/
  tc : TcConfig K
  iO2 : Nat
  iCO2 : Nat
  iH2O : Nat

/-- `validate`, GunnsFluidFireSource.cpp:225-233: is the configuration accepted? -/
def accepted (c : Config K) : Prop := ¬ |c.co2 + c.h2o + c.o2| < dblEps

instance (c : Config K) : Decidable (accepted c) := by unfold accepted; infer_instance

/-- The link. -/
structure Link (K : Type*) where
  /-- `mMalfFireFlag` -/
  burning : Bool
  /-- `mMalfFireHeat` -/
  heat : K
  /-- `mFlowO2` -/
  fO2 : K
  /-- `mFlowCO2` -/
  fCO2 : K
  /-- `mFlowH2O` -/
  fH2O : K
  /-- `mFlowRate` -/
  flow : K
  /-- `mFlux` -/
  flux : K
  /-- `mSourceVector[0]` -/
  source : K
  /-- `mPower` -/
  power : K
  /-- `mTraceCompoundMassRates` -/
  rates : Nat → K
  /-- `mInternalFluid` -/
  fluid : Poly K
  /-- its trace compounds -/
  tc : Tc K

/-- What a pass finds: the blockage, the partial pressure of oxygen in the cabin when the link steps and when it transports, and the
temperature of the cabin. -/
structure Pass (K : Type*) where
  block : Option K
  ppStep : K
  ppMove : K
  temperature : K

/-- GunnsFluidFireSource.cpp:259-261. -/
def smother (c : Config K) (q : Pass K) (l : Link K) : Link K :=
  if q.ppStep < c.least then { l with burning := false } else l

/-- `calculateFlowRate`, GunnsFluidFireSource.cpp:389-410. -/
def calculateFlowRate (c : Config K) (l : Link K) : Link K :=
  if l.burning then
    { l with
      fCO2 := c.co2 * l.heat
      fO2 := -c.o2 * l.heat
      fH2O := c.h2o * l.heat
      flow := c.co2 * l.heat + -c.o2 * l.heat + c.h2o * l.heat
      rates := fun i => if i < c.tc.n then c.trace i * l.heat else l.rates i }
  else l

/-- GunnsFluidFireSource.cpp:269-275. -/
def choke (q : Pass K) (l : Link K) : Link K :=
  match q.block with
  | none => l
  | some b =>
    { l with
      flow := l.flow * (1 - b)
      fO2 := l.fO2 * (1 - b)
      fCO2 := l.fCO2 * (1 - b)
      fH2O := l.fH2O * (1 - b) }

/-- GunnsFluidFireSource.cpp:280-285. -/
def moles (l : Link K) : Link K :=
  { l with flux := if dblEps < l.fluid.mweight then l.flow / l.fluid.mweight else 0 }

/-- `step`, GunnsFluidFireSource.cpp:254-288, and `buildSource`, GunnsFluidFireSource.hh:206-209. -/
def step (c : Config K) (q : Pass K) (l : Link K) : Link K :=
  let l' := moles (choke q (calculateFlowRate c (smother c q l)))
  { l' with source := l'.flux }

/-- `computePower`, GunnsFluidFireSource.hh:214-221. -/
def computePower (l : Link K) : Link K := { l with power := if l.burning then l.heat else 0 }

/-- The masses of `setBulkMasses`, GunnsFluidFireSource.cpp:415-421. -/
def bulk (c : Config K) (l : Link K) : List (Nat × K) := [(c.iO2, l.fO2), (c.iCO2, l.fCO2), (c.iH2O, l.fH2O)]

/-- The internal fluid of `updateFluid` after `resetState`, `setBulkMasses`, `updateMass` and `setTemperature`,
GunnsFluidFireSource.cpp:370-379. -/
def burnt (c : Config K) (q : Pass K) (l : Link K) : Poly K :=
  { updateMass (fill (bulk c l) (resetState l.fluid)) with temperature := q.temperature }

/-- `setTCMasses`, GunnsFluidFireSource.cpp:426-438, on the trace compounds `resetState` leaves; `moles` are those of the fluid. -/
def setTCMasses (c : Config K) (n : K) (l : Link K) : Tc K :=
  Tc.updateMoleFractions c.tc n { (Tc.zero : Tc K) with mass := fun i => if i < c.tc.n then l.rates i else 0 }

/-- `zeroGenValues`, GunnsFluidFireSource.cpp:443-463. -/
def zeroGenValues (c : Config K) (l : Link K) : Link K :=
  { l with
    fCO2 := 0
    fO2 := 0
    fH2O := 0
    flow := 0
    rates := fun i => if i < c.tc.n then 0 else l.rates i
    power := 0 }

/-- `updateFluid`, GunnsFluidFireSource.cpp:365-384. -/
def updateFluid (c : Config K) (q : Pass K) (l : Link K) : Link K :=
  if l.burning = true ∧ c.least < q.ppMove then
    { l with
      fluid := burnt c q l
      tc := setTCMasses c (burnt c q l).mole l }
  else zeroGenValues c { l with burning := false }

/-- What the cabin is given: `collectInflux` with a flow, a fluid and its trace compounds (flow zero if not called), and
`collectHeatFlux`, GunnsFluidFireSource.cpp:339-357. -/
structure Gift (K : Type*) where
  flow : K
  fluid : Poly K
  tc : Tc K
  heat : K

/-- The mass rate of one constituent into the cabin (core/GunnsFluidNode.cpp:484-496, PolyFluid.cpp:1003-1005). -/
def Gift.rate (g : Gift K) (i : Nat) : K := g.flow * (g.fluid.parts i).massFraction

/-- The mass rate of one trace compound into the cabin: PolyFluid.cpp:1068-1075 and GunnsFluidTraceCompounds.cpp:677-686. -/
def Gift.traceRate (c : Config K) (g : Gift K) (i : Nat) : K :=
  if dblEps < g.fluid.mweight then g.flow / g.fluid.mweight * g.tc.frac i * c.tc.mw i else 0

/-- `transportFlows` and `transportFluid`, GunnsFluidFireSource.cpp:310-357. -/
def transportFlows (c : Config K) (q : Pass K) (l : Link K) : Link K × Gift K :=
  let l' := updateFluid c q (computePower l)
  (l', { flow := passed l'.flow, fluid := l'.fluid, tc := l'.tc, heat := l'.power })

/-- One pass of the network: the step, and the transport after the solution. -/
def pass (c : Config K) (q : Pass K) (l : Link K) : Link K × Gift K := transportFlows c q (step c q l)

/-- Several passes; what the cabin is given by each. -/
def run (c : Config K) : List (Pass K) → Link K → Link K × List (Gift K)
  | [], l => (l, [])
  | q :: qs, l =>
    let r := pass c q l
    let s := run c qs r.1
    (s.1, r.2 :: s.2)

end Gunns.Fire
