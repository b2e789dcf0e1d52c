import Verif.Fluid.Trace
import Verif.Math.Interp

/-!
# Adsorbers

Model of `GunnsFluidAdsorber` (aspects/fluid/source/GunnsFluidAdsorber.cpp) and `GunnsFluidHotAdsorber`
(aspects/fluid/source/GunnsFluidHotAdsorber.cpp): the mass that a bed takes from the stream or gives to it, the trace
compounds, and the source vector.

Simplifications: doubles are elements of an ordered field.  The fluid temperature after the exchange of heat with the wall
(`updateTemperature`, Verif/Fluid/Heat.lean) is given for each pass, as are the mass fraction of the gas, the mass and molar
flow and the trace compounds of the internal fluid.  What the exit node is given (`collectInflux`, Verif/Fluid/Node.lean) is
its port and the rate; the sorption fluid is pure gas.  The arrays of the trace compounds are functions of the index.  Of
`validate` only the checks on numbers are there.
-/

namespace Gunns.Adsorb

open Gunns.Fluid (Tc TcConfig)
open Gunns.Interp (limitRange)

variable {K : Type*} [Field K] [LinearOrder K] [IsStrictOrderedRing K]

/-- `m100EpsilonLimit`, core/GunnsBasicLink.cpp:43. -/
def eps100 : K := 100 * dblEps

/-- The values of an adsorber, aspects/fluid/source/GunnsFluidAdsorber.hh. -/
structure Adsorber (K : Type*) where
  /-- `mEfficiency` -/
  efficiency : K
  /-- `mMaxAdsorbtionRate` -/
  maxRate : K
  /-- `mMaxAdsorbedMass` -/
  maxMass : K
  /-- `mDesorbtionRate` -/
  desorbRate : K
  /-- `mEfficiencyBias` and `mEfficiencyScaleFactor` of a hot adsorber -/
  hot : Option (K × K)
  /-- `mTcEfficiency` -/
  tcEfficiency : ℕ → K
  /-- `mTcMaxAdsorbedMass` -/
  tcMax : ℕ → K
  /-- `mMalfEfficiencyValue` if `mMalfEfficiencyFlag` -/
  malf : Option K
  /-- `mDesorbtionCycle` -/
  cycle : Bool
  /-- `mAdsorbedMass` -/
  adsorbed : K
  /-- `mMass` -/
  mass : K
  /-- `mSorbtionFlowRate` -/
  rate : K
  /-- `mSourceVector` -/
  source : ℕ → K
  /-- `mTcAdsorbedMass` -/
  tcAdsorbed : ℕ → K

/-- What an adsorber finds in one pass. -/
structure Pass (K : Type*) where
  /-- the time step -/
  dt : K
  /-- `mFlowRate` -/
  flow : K
  /-- `mFlux` -/
  flux : K
  /-- `mFluidTemperature` after `updateTemperature` -/
  temp : K
  /-- mass fraction of the gas in the internal fluid -/
  fraction : K
  /-- molecular weight of the gas -/
  mw : K
  /-- the trace compounds of the network and of the internal fluid, if there are any -/
  tc : Option (TcConfig K × Tc K)

/-- What an adsorber leaves after one pass. -/
structure Result (K : Type*) where
  bed : Adsorber K
  /-- the trace compounds of the internal fluid -/
  tc : Option (Tc K)
  /-- port and rate of the call of `collectInflux` -/
  given : Option (ℕ × K)

/-- The checks on numbers of `validate`, aspects/fluid/source/GunnsFluidAdsorber.cpp:320-348. -/
def accepted (a : Adsorber K) (wall : K) : Bool :=
  decide (0 ≤ a.efficiency ∧ a.efficiency ≤ 1) && decide (¬ a.maxRate < 0) && decide (¬ a.maxMass < 0) &&
    decide (¬ a.desorbRate < 0) && decide (¬ a.adsorbed < 0) && decide (¬ wall < 0)

/-- `computeEfficiency`, aspects/fluid/source/GunnsFluidAdsorber.cpp:509-526 and
aspects/fluid/source/GunnsFluidHotAdsorber.cpp:226-237. -/
def computeEfficiency (a : Adsorber K) (temp : K) : Adsorber K × K :=
  match a.hot with
  | none => (a, a.malf.getD (if a.cycle then -1 else a.efficiency))
  | some (bias, scale) =>
    let e := a.malf.getD (limitRange (-1) (bias + scale * temp) 1)
    ({ a with cycle := decide (e < 0) }, e)

/-- The efficiency for a trace compound, aspects/fluid/source/GunnsFluidAdsorber.cpp:444-447. -/
def tcEfficiencyNow (a : Adsorber K) (i : ℕ) : K :=
  if dblEps < a.tcMax i then a.tcEfficiency i * max 0 ((a.tcMax i - a.tcAdsorbed i) / a.tcMax i) else a.tcEfficiency i

/-- The adsorption rate of a trace compound of which `inlet` comes in, aspects/fluid/source/GunnsFluidAdsorber.cpp:448-454;
zero stands for a skipped compound. -/
def tcRate (a : Adsorber K) (inlet : K) (i : ℕ) : K :=
  if dblEps < tcEfficiencyNow a i then inlet * tcEfficiencyNow a i else 0

/-- The trace compounds in `adsorb`, aspects/fluid/source/GunnsFluidAdsorber.cpp:440-460. -/
def adsorbTc (a : Adsorber K) (dt flux : K) (g : TcConfig K) (t : Tc K) : (ℕ → K) × Tc K :=
  let t1 := t.updateMasses g flux
  (fun i => if i < g.n then a.tcAdsorbed i + tcRate a (t1.mass i) i * dt else a.tcAdsorbed i,
   Tc.updateMoleFractions g flux { t1 with mass := fun i => if i < g.n then t1.mass i - tcRate a (t1.mass i) i else t1.mass i })

/-- `mMass` in `adsorb`, aspects/fluid/source/GunnsFluidAdsorber.cpp:430-432. -/
def adsorbMass (a : Adsorber K) (p : Pass K) (e : K) : K :=
  max (min (p.fraction * |p.flow| * p.dt * e) (min (a.maxRate * p.dt) (a.maxMass - a.adsorbed))) 0

/-- `adsorb`, aspects/fluid/source/GunnsFluidAdsorber.cpp:427-461. -/
def adsorb (a : Adsorber K) (p : Pass K) (e : K) : Adsorber K × Option (Tc K) :=
  ({ a with
     mass := adsorbMass a p e
     adsorbed := a.adsorbed + adsorbMass a p e
     rate := -adsorbMass a p e / p.dt
     tcAdsorbed := match p.tc with
       | some (g, t) => (adsorbTc a p.dt p.flux g t).1
       | none => a.tcAdsorbed },
   p.tc.map (fun c => (adsorbTc a p.dt p.flux c.1 c.2).2))

/-- `mMass` in `desorb`, aspects/fluid/source/GunnsFluidAdsorber.cpp:475. -/
def desorbMass (a : Adsorber K) (p : Pass K) (e : K) : K := -max (min a.adsorbed (-e * a.desorbRate * p.dt)) 0

/-- `desorb`, aspects/fluid/source/GunnsFluidAdsorber.cpp:472-483. -/
def desorb (a : Adsorber K) (p : Pass K) (e : K) : Adsorber K × Option (Tc K) :=
  ({ a with
     mass := desorbMass a p e
     adsorbed := a.adsorbed + desorbMass a p e
     rate := -desorbMass a p e / p.dt },
   p.tc.map (fun c => c.2))

/-- The molecular weight of the sorption fluid after `updateMass`, aspects/fluid/fluid/PolyFluid.cpp:828-861, when it has the
mass `m` of the gas and nothing else. -/
def sorbWeight (mw m : K) : K := innerLimit dblEps |m| / innerLimit dblEps (|m| / mw)

/-- The port that the flow leaves at, aspects/fluid/source/GunnsFluidAdsorber.cpp:405-410. -/
def exitPort (flow : K) : ℕ := if 0 ≤ flow then 1 else 0

/-- The sorption of a pass, aspects/fluid/source/GunnsFluidAdsorber.cpp:383-391. -/
def sorb (a : Adsorber K) (p : Pass K) : Adsorber K × Option (Tc K) :=
  let c := computeEfficiency { a with
    rate := 0
    mass := 0 } p.temp
  if c.1.cycle then desorb c.1 p c.2 else adsorb c.1 p c.2

/-- The source vector, aspects/fluid/source/GunnsFluidAdsorber.cpp:405-413. -/
def sourceOf (a : Adsorber K) (p : Pass K) (k : ℕ) : K :=
  if k = exitPort p.flow then a.rate / sorbWeight p.mw a.mass else 0

/-- `updateFluid`, aspects/fluid/source/GunnsFluidAdsorber.cpp:373-416. -/
def updateFluid (a : Adsorber K) (p : Pass K) : Result K :=
  if dblEps < p.dt then
    let s := sorb a p
    if eps100 < abs s.1.rate then
      { bed := { s.1 with source := sourceOf s.1 p }
        tc := s.2
        given := some (exitPort p.flow, s.1.rate) }
    else { bed := s.1, tc := s.2, given := none }
  else
    { bed := { a with
        rate := 0
        mass := 0 }
      tc := p.tc.map (fun c => c.2)
      given := none }

/-- The adsorber after a sequence of passes. -/
def run (a : Adsorber K) (ps : List (Pass K)) : Adsorber K := ps.foldl (fun b p => (updateFluid b p).bed) a

end Gunns.Adsorb
