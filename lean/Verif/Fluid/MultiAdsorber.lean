import Verif.Fluid.Adsorber
import Mathlib.Analysis.SpecialFunctions.Pow.Real

/-!
# Adsorbers of several compounds

Model of `GunnsFluidAdsorptionCompound` (aspects/fluid/source/GunnsFluidAdsorptionCompound.cpp and .hh) and
`GunnsFluidMultiAdsorber` (aspects/fluid/source/GunnsFluidMultiAdsorber.cpp).

Simplifications: doubles are real numbers.  The average temperature and pressure, the mass flow, the fractions of the internal
fluid and the heat flux between stream and wall are given for each pass.  What the exit node is given is its port, the rate and
the mass fractions.  The compounds are a function of their position and those of different positions have different indexes, as
`validate` sees to (GunnsFluidMultiAdsorber.cpp:257-264).  The molecular weight of a compound is that of its fluid.
-/

namespace Gunns.MultiAdsorb

open Gunns.Fluid (Tc TcConfig)
open Gunns.Interp (limitRange)
open Gunns.Adsorb (eps100 exitPort)

/-- A compound, aspects/fluid/source/GunnsFluidAdsorptionCompound.hh. -/
structure Compound where
  /-- `mEfficiencyCoeff0` -/
  coeff0 : ℝ
  /-- `mEfficiencyCoeff1` -/
  coeff1 : ℝ
  /-- `mMaxAdsorbedMass` -/
  maxMass : ℝ
  /-- `mDesorbPartialPressure` -/
  desorbPressure : ℝ
  /-- `mDesorbRateFactor` -/
  desorbFactor : ℝ
  /-- `mHeatOfAdsorption` -/
  heatOf : ℝ
  /-- `mTaperOffFlag` -/
  taper : Bool
  /-- `mBreakthroughExp` -/
  breakthrough : ℝ
  /-- position of `mDependentCompound` -/
  dependent : Option ℕ
  /-- `mTraceCompound` -/
  trace : Bool
  /-- `mIndex` -/
  index : ℕ
  /-- `mMWeight` -/
  mw : ℝ
  /-- `mMalfEfficiencyValue` if `mMalfEfficiencyFlag` -/
  malf : Option ℝ
  /-- `mAdsorbedMass` -/
  adsorbed : ℝ
  /-- `mFillFraction` -/
  fill : ℝ
  /-- `mAdsorptionRate` -/
  rate : ℝ
  /-- `mSorptionHeat` -/
  heat : ℝ

/-- The checks on numbers of `initialize`, aspects/fluid/source/GunnsFluidAdsorptionCompound.cpp:206-240. -/
def accepted (c : Compound) : Prop :=
  ¬ c.maxMass < dblEps ∧ ¬ c.desorbFactor < 0 ∧ (0 ≤ c.adsorbed ∧ c.adsorbed ≤ c.maxMass) ∧
    (∀ v, c.malf = some v → 0 ≤ v ∧ v ≤ 1) ∧ (1 ≤ c.breakthrough ∧ c.breakthrough ≤ 100)

/-- The internal fluid. -/
structure Stream where
  /-- `mNConstituents` -/
  n : ℕ
  /-- mole fractions of the fluids -/
  mole : ℕ → ℝ
  /-- mass fractions of the fluids -/
  mass : ℕ → ℝ
  /-- trace compounds of the network -/
  config : TcConfig ℝ
  /-- masses and mole fractions of the trace compounds -/
  tc : Tc ℝ
  /-- `mMole` -/
  moles : ℝ

/-- What the adsorber finds in one pass. -/
structure Pass where
  /-- the time step -/
  dt : ℝ
  /-- average of the temperatures at the inlet and inside -/
  temp : ℝ
  /-- average of the pressures of the ports -/
  pressure : ℝ
  /-- `mFlowRate` -/
  flow : ℝ
  /-- heat flux between stream and wall -/
  convection : ℝ

/-- The efficiency, aspects/fluid/source/GunnsFluidAdsorptionCompound.cpp:261-262. -/
noncomputable def Compound.efficiency (c : Compound) (temp : ℝ) : ℝ := limitRange (-1) (c.coeff0 + c.coeff1 * temp) 1

/-- The partial pressure, aspects/fluid/source/GunnsFluidAdsorptionCompound.cpp:265-270. -/
noncomputable def Compound.partialPressure (c : Compound) (s : Stream) (p : Pass) : ℝ :=
  if c.trace then p.pressure * s.tc.frac c.index else p.pressure * s.mole c.index

/-- `mdotThru`, aspects/fluid/source/GunnsFluidAdsorptionCompound.cpp:282-287; `none` if `PolyFluid::getMassFraction` throws
(aspects/fluid/fluid/PolyFluid.cpp:570-579). -/
noncomputable def Compound.through (c : Compound) (s : Stream) (p : Pass) : Option ℝ :=
  if c.trace = true ∧ eps100 < |p.flow| then some (s.tc.mass c.index)
  else if c.index < s.n then some (s.mass c.index * |p.flow|) else none

/-- The rate before it is scaled, aspects/fluid/source/GunnsFluidAdsorptionCompound.cpp:272-289. -/
noncomputable def Compound.rawRate (c : Compound) (s : Stream) (p : Pass) : Option ℝ :=
  if c.partialPressure s p < c.desorbPressure ∨ c.efficiency p.temp < 0 then
    some (min 0 (c.partialPressure s p - c.desorbPressure) * c.desorbFactor * |c.efficiency p.temp|)
  else (c.through s p).map (fun m => c.efficiency p.temp * m)

/-- The taper-off, aspects/fluid/source/GunnsFluidAdsorptionCompound.cpp:294-301. -/
noncomputable def Compound.taperOff (c : Compound) (r : ℝ) : ℝ :=
  if c.taper then
    if 0 < r then r * (1 - (max 0.1 c.fill) ^ (limitRange 1 c.breakthrough 100)) else r * c.fill
  else r

/-- The dependent compound, of which the filled fraction is given, aspects/fluid/source/GunnsFluidAdsorptionCompound.cpp:306-312. -/
noncomputable def dependOn (fill : Option ℝ) (r : ℝ) : ℝ :=
  match fill with
  | some f => if 0 < r then r * f else r * (1 - f)
  | none => r

/-- The malfunction, aspects/fluid/source/GunnsFluidAdsorptionCompound.cpp:315-317. -/
noncomputable def Compound.malfunction (c : Compound) (r : ℝ) : ℝ := r * c.malf.getD 1

/-- The limit of the rate, aspects/fluid/source/GunnsFluidAdsorptionCompound.cpp:320-324. -/
noncomputable def Compound.limitRate (c : Compound) (dt r : ℝ) : ℝ :=
  if 0 < r then min r ((c.maxMass - c.adsorbed) / dt) else max r (-c.adsorbed / dt)

/-- The limit of the mass, aspects/fluid/source/GunnsFluidAdsorptionCompound.cpp:328-332. -/
noncomputable def snap (maxMass m : ℝ) : ℝ :=
  if m < dblEps then 0 else if maxMass - m < dblEps then maxMass else m

/-- The end of `sorb` with its rate, aspects/fluid/source/GunnsFluidAdsorptionCompound.cpp:327-342. -/
noncomputable def Compound.store (c : Compound) (dt r : ℝ) : Compound :=
  { c with
    adsorbed := snap c.maxMass (c.adsorbed + r * dt)
    fill := snap c.maxMass (c.adsorbed + r * dt) / max c.maxMass dblEps
    rate := r
    heat := -c.heatOf * r * 1000000 / c.mw }

/-- The rate of a pass, aspects/fluid/source/GunnsFluidAdsorptionCompound.cpp:257-324. -/
noncomputable def Compound.sorbRate (c : Compound) (s : Stream) (p : Pass) (fill : Option ℝ) : Option ℝ :=
  (c.rawRate s p).map (fun r => c.limitRate p.dt (c.malfunction (dependOn fill (c.taperOff r))))

/-- `sorb`, aspects/fluid/source/GunnsFluidAdsorptionCompound.cpp:257-343. -/
noncomputable def Compound.sorb (c : Compound) (s : Stream) (p : Pass) (fill : Option ℝ) : Option Compound :=
  (c.sorbRate s p fill).map (c.store p.dt)

/-- The loop over the compounds, aspects/fluid/source/GunnsFluidMultiAdsorber.cpp:322-329: the first `n` are updated in order, and
each sees the filled fraction of its dependent compound as it then is. -/
noncomputable def sorbAll (s : Stream) (p : Pass) : ℕ → (ℕ → Compound) → Option (ℕ → Compound)
  | 0, cs => some cs
  | n + 1, cs =>
    (sorbAll s p n cs).bind (fun ds =>
      ((ds n).sorb s p ((ds n).dependent.map (fun j => (ds j).fill))).map (fun c => Function.update ds n c))

/-- `fluidAdsorptionRate`, aspects/fluid/source/GunnsFluidMultiAdsorber.cpp:321-326. -/
noncomputable def fluidRate (cs : ℕ → Compound) : ℕ → ℝ
  | 0 => 0
  | n + 1 => fluidRate cs n + if (cs n).trace then 0 else (cs n).rate

/-- The moles of the sorption fluid before they are bound away from zero, aspects/fluid/fluid/PolyFluid.cpp:843-848. -/
noncomputable def fluidMoles (cs : ℕ → Compound) : ℕ → ℝ
  | 0 => 0
  | n + 1 => fluidMoles cs n + if (cs n).trace then 0 else -(cs n).rate / (cs n).mw

/-- `mSorptionHeat`, aspects/fluid/source/GunnsFluidMultiAdsorber.cpp:328. -/
noncomputable def heatAll (cs : ℕ → Compound) : ℕ → ℝ
  | 0 => 0
  | n + 1 => heatAll cs n + (cs n).heat

/-- The masses of the trace compounds, aspects/fluid/source/GunnsFluidMultiAdsorber.cpp:353-360. -/
noncomputable def takeTrace (cs : ℕ → Compound) : ℕ → (ℕ → ℝ) → ℕ → ℝ
  | 0, m => m
  | n + 1, m =>
    let m' := takeTrace cs n m
    if (cs n).trace then Function.update m' (cs n).index (m' (cs n).index - (cs n).rate) else m'

/-- What is given to the exit node. -/
structure Given where
  port : ℕ
  /-- the rate of `collectInflux` -/
  rate : ℝ
  /-- mass fraction of the compound at a position in the sorption fluid -/
  fraction : ℕ → ℝ

/-- The adsorber after a pass. -/
structure Result where
  compounds : ℕ → Compound
  tc : Tc ℝ
  source : ℕ → ℝ
  wallHeat : ℝ
  given : Option Given

/-- The molecular weight of the sorption fluid after `updateMass`, aspects/fluid/fluid/PolyFluid.cpp:828-861. -/
noncomputable def sorbWeight (cs : ℕ → Compound) (n : ℕ) : ℝ :=
  innerLimit dblEps (-fluidRate cs n) / innerLimit dblEps (fluidMoles cs n)

/-- The mass fraction of the compound at position `i` in the sorption fluid after `updateMass`. -/
noncomputable def sorbFraction (cs : ℕ → Compound) (n i : ℕ) : ℝ :=
  if i < n ∧ (cs i).trace = false then -(cs i).rate / innerLimit dblEps (-fluidRate cs n) else 0

/-- The end of `updateFluid`, aspects/fluid/source/GunnsFluidMultiAdsorber.cpp:331-380. -/
noncomputable def transport (cs : ℕ → Compound) (n : ℕ) (s : Stream) (p : Pass) : Result :=
  if eps100 < |fluidRate cs n| then
    ⟨cs, Tc.updateMoleFractions s.config s.moles { s.tc with mass := takeTrace cs n s.tc.mass },
     fun k => if k = exitPort p.flow then -fluidRate cs n / sorbWeight cs n else 0,
     p.convection + heatAll cs n,
     some ⟨exitPort p.flow, -fluidRate cs n, sorbFraction cs n⟩⟩
  else ⟨cs, s.tc, fun _ => 0, p.convection + heatAll cs n, none⟩

/-- `updateFluid`, aspects/fluid/source/GunnsFluidMultiAdsorber.cpp:292-381, with more than the least time step; `none` if it
throws. -/
noncomputable def updateFluid (cs : ℕ → Compound) (n : ℕ) (s : Stream) (p : Pass) : Option Result :=
  (sorbAll s p n cs).map (fun ds => transport ds n s p)

/-- The internal fluid before the next pass: `setState` copies the fractions of the node that the flow comes from and neither moles
nor masses (core/GunnsFluidConductor.cpp:365-391, aspects/fluid/fluid/PolyFluid.cpp:909-954). -/
def nextStream (tc : Tc ℝ) (node s : Stream) : Stream :=
  { node with
    config := s.config
    moles := s.moles
    tc := Tc.setState node.tc tc }

end Gunns.MultiAdsorb
