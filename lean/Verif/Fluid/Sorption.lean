import Verif.Base.Loop
import Verif.Base.Const
import Verif.Math.Interp
import Mathlib.Analysis.SpecialFunctions.Pow.Real

/-!
# Sorption beds

`SorbateProperties` and `SorbantProperties` of ms-utils/properties/SorbantProperties.{cpp,hh}, and the sorbates, segments and bed
of aspects/fluid/source/GunnsFluidSorptionBed.{cpp,hh}.

Simplifications: doubles are an ordered field, or the real numbers for the isotherm, which needs `exp` and `pow`. The
temperatures in and out of a segment and its convective heat (computeConvectiveHeatFlux, Verif/Fluid/Heat.lean) are given as
values. The stream is the masses and fractions of its compounds, as functions of the index; an index of -1 is `none`. The
saturation pressure, specific heat and isotherm of a sorbate are functions.
-/

namespace Gunns.Sorption

open Gunns.Interp (limitRange)

/-! ## Sorbate properties -/

/-- The exponent of the isotherm, ms-utils/properties/SorbantProperties.cpp:150-151. -/
noncomputable def tothT (t0 c0 temperature : ℝ) : ℝ :=
  innerLimit 0.1 (limitRange (-100) (t0 + c0 / temperature) 100)

/-- The factor `expT`, ms-utils/properties/SorbantProperties.cpp:146-147. -/
noncomputable def tothExp (e temperature : ℝ) : ℝ := Real.exp (limitRange 0 (e / temperature) 100)

/-- `SorbateProperties::computeLoadingEquil`, ms-utils/properties/SorbantProperties.cpp:142-156. -/
noncomputable def loadingEquil (a0 b0 e t0 c0 pp temperature : ℝ) : ℝ :=
  if e ≠ 0 ∧ fltEps ≤ pp then
    let a := a0 * tothExp e temperature
    let b := b0 * tothExp e temperature
    let tT := tothT t0 c0 temperature
    let denom := (1 + (b * pp) ^ tT) ^ (1 / tT)
    a * pp / max denom dblEps
  else 0

section
variable {K : Type*} [Field K] [LinearOrder K]

/-- The checks of the constructor of `SorbateProperties`, ms-utils/properties/SorbantProperties.cpp:69-84. -/
def sorbateAccepted {τ : Type*} [DecidableEq τ] (compound : τ) (blocking offgas : List (τ × K)) (km : K) : Bool :=
  decide (¬ km < dblEps) && blocking.all (fun b => decide (b.1 ≠ compound)) &&
    offgas.all (fun o => decide (o.1 ≠ compound) && decide (¬ o.2 < 0))

/-- The checks of the constructor of `SorbantProperties`, ms-utils/properties/SorbantProperties.cpp:209-217. -/
def sorbantAccepted (density porosity cp : K) : Bool :=
  decide (¬ density < dblEps) && decide (0 ≤ porosity ∧ porosity ≤ 1) && decide (¬ cp < dblEps)

/-- `SorbantProperties::computeVolume`, ms-utils/properties/SorbantProperties.hh:280-283. -/
def sorbantVolume (porosity enclosure : K) : K := enclosure * (1 - porosity)

/-- `registerInteractions`, aspects/fluid/source/GunnsFluidSorptionBed.cpp:104-117: the position of the first sorbate of each
    blocking compound's type, with its interaction. -/
def register {τ : Type*} [DecidableEq τ] (types : List τ) (blocking : List (τ × K)) : List (ℕ × K) :=
  blocking.filterMap (fun b => if b.1 ∈ types then some (types.idxOf b.1, b.2) else none)

/-! ## The stream -/

/-- The internal fluid of the bed. -/
structure Stream (K : Type*) where
  /-- masses of the bulk compounds -/
  mass : ℕ → K
  /-- `getMoleFraction` of the bulk compounds -/
  x : ℕ → K
  /-- `getMassFraction` of the bulk compounds -/
  w : ℕ → K
  /-- `getMWeight` of the mixture -/
  mw : K
  /-- masses of the trace compounds -/
  tcMass : ℕ → K
  /-- mole fractions of the trace compounds -/
  tcX : ℕ → K

/-- The number and molecular weights of the compounds of the stream. -/
structure Compounds (K : Type*) where
  /-- number of bulk compounds -/
  n : ℕ
  /-- number of trace compounds -/
  nTc : ℕ
  /-- molecular weights of the bulk compounds -/
  mw : ℕ → K
  /-- molecular weights of the trace compounds -/
  mwTc : ℕ → K

/-- `PolyFluid::updateMass` followed by `GunnsFluidTraceCompounds::updateMoleFractions`,
    aspects/fluid/fluid/PolyFluid.cpp:828-868, aspects/fluid/fluid/GunnsFluidTraceCompounds.cpp:647-663. -/
def updateMass (c : Compounds K) (s : Stream K) : Stream K :=
  let total := innerLimit dblEps (loop (fun k a => a + s.mass k) c.n 0)
  let moles := innerLimit dblEps (loop (fun k a => a + s.mass k / c.mw k) c.n 0)
  let frac := fun j => if 0 < moles then s.tcMass j / moles / c.mwTc j else s.tcX j
  { mass := s.mass
    x := fun k => s.mass k / c.mw k / moles
    w := fun k => s.mass k / total
    mw := total / moles
    tcMass := fun j => if frac j < dblEps then 0 else s.tcMass j
    tcX := fun j => if frac j < dblEps then 0 else frac j }

/-- `GunnsFluidSorptionBedSegment::exchangeFluid`, aspects/fluid/source/GunnsFluidSorptionBed.cpp:563-596: the new stream and the
    change of its flow rate. -/
def exchange (fluid tc : Option ℕ) (mdotInBulk ndotInTc dndot mw : K) (s : Stream K) : Stream K × K :=
  let tcSorb := max dndot (-ndotInTc)
  let bulk : K :=
    match fluid with
    | none => 0
    | some _ => if dndot < -dblEps then -(-dndot + tcSorb) * mw else if dblEps < dndot then dndot * mw else 0
  let ndotOutTc : K :=
    if dndot < -dblEps then ndotInTc + tcSorb
    else if dblEps < dndot then (match fluid with
      | none => ndotInTc + dndot
      | some _ => ndotInTc)
    else ndotInTc
  let mass : ℕ → K :=
    match fluid with
    | none => s.mass
    | some k =>
      if dndot < -dblEps then Function.update s.mass k (max (mdotInBulk + bulk) 0)
      else if dblEps < dndot then Function.update s.mass k (mdotInBulk + bulk)
      else s.mass
  let tcMass : ℕ → K :=
    match tc with
    | none => s.tcMass
    | some j => Function.update s.tcMass j (ndotOutTc * mw)
  ({ s with
    mass := mass
    tcMass := tcMass }, bulk)

/-! ## Sorbates -/

/-- A compound given off as another is adsorbed. -/
structure Offgas (K : Type*) where
  /-- `mFluid` of the offgas index -/
  fluid : Option ℕ
  /-- `mTc` of the offgas index -/
  tc : Option ℕ
  /-- `mInteraction` -/
  interaction : K

/-- The constants of a sorbate in a segment. -/
structure Props (K : Type*) where
  /-- `computeLoadingEquil` -/
  equil : K → K → K
  /-- `mKm` -/
  km : K
  /-- `mDh` -/
  dh : K
  /-- `mCompound->mMWeight` -/
  mw : K
  /-- `mFluidIndexes.mFluid` -/
  fluid : Option ℕ
  /-- `mFluidIndexes.mTc` -/
  tc : Option ℕ
  /-- the registered blocking sorbates -/
  blocking : List (ℕ × K)
  /-- the offgas compounds -/
  offgas : List (Offgas K)
  /-- `getSaturationPressure` of the compound's fluid -/
  pSat : K → K
  /-- `getSpecificHeat` of the compound's fluid -/
  cp : K → K

/-- The state of a sorbate. -/
structure Sorbate (K : Type*) where
  /-- `mMalfLoadingEquilFlag` -/
  malfFlag : Bool
  /-- `mMalfLoadingEquilValue` -/
  malfValue : K
  /-- `mLoading` -/
  loading : K
  /-- `mLoadingEquil` -/
  equil : K
  /-- `mLoadingRate` -/
  rate : K
  /-- `mLoadingFraction` -/
  fraction : K
  /-- `mLoadedMass` -/
  loadedMass : K
  /-- `mAdsorptionRate` -/
  adsorption : K

/-- The factor of a blocking sorbate, aspects/fluid/source/GunnsFluidSorptionBed.cpp:137-143. -/
def blockFactor (interaction fraction : K) : K :=
  1 - limitRange 0 (if 0 ≤ interaction then interaction * fraction else interaction * (fraction - 1)) 1

/-- `updateLoadingEquil`, aspects/fluid/source/GunnsFluidSorptionBed.cpp:129-148. -/
def updateEquil (p : Props K) (pp temperature : K) (sorbs : ℕ → Sorbate K) (s : Sorbate K) : Sorbate K :=
  let e := p.blocking.foldl (fun acc b => acc * blockFactor b.2 (sorbs b.1).fraction) (p.equil pp temperature)
  { s with
    equil := if s.malfFlag then e * max 0 s.malfValue else e }

/-- `mLimitAdsorbFraction`, aspects/fluid/source/GunnsFluidSorptionBed.cpp:24. -/
def limitFraction : K := 99 / 100

/-- `updateLoading`, aspects/fluid/source/GunnsFluidSorptionBed.cpp:161-173. -/
def updateLoading (km dt inFlux desorbLimit : K) (s : Sorbate K) : Sorbate K :=
  let r0 := km * (s.equil - s.loading)
  let r := if 0 ≤ r0 then min r0 (limitFraction * inFlux) else max (max (-s.loading / dt) (-desorbLimit)) r0
  let l := max 0 (s.loading + r * dt)
  { s with
    rate := r
    loading := l
    fraction := l / max s.equil dblEps }

/-- `updateLoadedMass`, aspects/fluid/source/GunnsFluidSorptionBed.cpp:206-210. -/
def updateLoadedMass (mw volume : K) (s : Sorbate K) : Sorbate K :=
  { s with
    loadedMass := s.loading * volume * mw
    adsorption := s.rate * volume }

/-- `getMoleFraction` of a sorbate, aspects/fluid/source/GunnsFluidSorptionBed.cpp:184-198. -/
def moleFraction (p : Props K) (s : Stream K) : K :=
  (match p.fluid with
    | none => 0
    | some k => s.x k) +
  (match p.tc with
    | none => 0
    | some j => s.tcX j)

/-! ## Segments -/

/-- The constants of a segment. -/
structure Segment (K : Type*) where
  /-- `mNSorbates` -/
  n : ℕ
  /-- `mProperties` of the sorbates -/
  props : ℕ → Props K
  /-- `mVolSorbant` -/
  volume : K
  /-- `mMalfDegradeFlag` -/
  degradeFlag : Bool
  /-- `mMalfDegradeValue` -/
  degradeValue : K
  /-- `computeThermalCapacity` of the sorbant -/
  solidCap : K
  /-- `mTemperature` -/
  temperature : K

/-- `computeEffectiveSorbantVolume`, aspects/fluid/source/GunnsFluidSorptionBed.hh:427-433. -/
def effectiveVolume (g : Segment K) : K :=
  if g.degradeFlag then g.volume * limitRange 0 (1 - g.degradeValue) 1 else g.volume

/-- What a segment meets in an update: pressures, temperatures of the stream, time step, convective heat, and the arbitrarily
    large limit `FLT_MAX`. -/
structure Inlet (K : Type*) where
  /-- `pIn` -/
  pIn : K
  /-- `pOut` -/
  pOut : K
  /-- `Tavg` -/
  tAvg : K
  /-- `Tout` -/
  tOut : K
  /-- `timestep` -/
  dt : K
  /-- result of `computeConvectiveHeatFlux` -/
  heat : K
  /-- `FLT_MAX` -/
  fltMax : K

/-- The state of a segment's update: sorbates, stream, flow rate, heat flux and thermal capacity. -/
structure Run (K : Type*) where
  /-- `mSorbates` -/
  sorbs : ℕ → Sorbate K
  /-- `mFluid` -/
  stream : Stream K
  /-- `flow` -/
  flow : K
  /-- `heatFlux` -/
  heat : K
  /-- `thermCap` -/
  cap : K

/-- `ndot` times the bulk mole fraction of a sorbate, aspects/fluid/source/GunnsFluidSorptionBed.cpp:465-468. -/
def ndotBulk (p : Props K) (s : Stream K) (ndot : K) : K :=
  match p.fluid with
  | none => 0
  | some k => ndot * s.x k

/-- `ndotInTc`, aspects/fluid/source/GunnsFluidSorptionBed.cpp:464-473. -/
def ndotTc (p : Props K) (s : Stream K) (ndot : K) : K :=
  match p.tc with
  | none => 0
  | some j => ndot * s.tcX j

/-- `desorbLimit`, aspects/fluid/source/GunnsFluidSorptionBed.cpp:480-486. -/
def desorbLimit (p : Props K) (i : Inlet K) (ndot ndotIn : K) : K :=
  match p.fluid with
  | none => i.fltMax
  | some _ => max 0 (ndot * p.pSat i.tOut / max i.pOut dblEps - ndotIn)

/-- The update of one sorbate's loading, aspects/fluid/source/GunnsFluidSorptionBed.cpp:455-491. -/
def sorb (g : Segment K) (i : Inlet K) (ndot : K) (s : Stream K) (sorbs : ℕ → Sorbate K) (k : ℕ) : Sorbate K :=
  let p := g.props k
  let ndotIn := ndotBulk p s ndot + ndotTc p s ndot
  let e := updateEquil p (i.pIn * moleFraction p s) i.tAvg sorbs (sorbs k)
  updateLoadedMass p.mw (effectiveVolume g)
    (updateLoading p.km i.dt (ndotIn / g.volume) (desorbLimit p i ndot ndotIn / g.volume) e)

/-- One offgas compound, aspects/fluid/source/GunnsFluidSorptionBed.cpp:503-522. -/
def offgasOne (c : Compounds K) (flowIn ndot adsorption : K) (r : Run K) (o : Offgas K) : Run K :=
  let rate := adsorption * o.interaction
  if (o.fluid.isSome || o.tc.isSome) && decide (dblEps ≤ rate) then
    let mdotIn : K :=
      match o.fluid with
      | none => 0
      | some k => flowIn * r.stream.w k
    let ndotIn : K :=
      match o.tc with
      | none => 0
      | some j => ndot * r.stream.tcX j
    let mw : K :=
      match o.tc with
      | some j => c.mwTc j
      | none => match o.fluid with
        | some k => c.mw k
        | none => 0
    let e := exchange o.fluid o.tc mdotIn ndotIn rate mw r.stream
    { r with
      stream := e.1
      flow := r.flow + e.2 }
  else r

/-- One turn of the loop over the sorbates, aspects/fluid/source/GunnsFluidSorptionBed.cpp:454-538. -/
def sorbateStep (c : Compounds K) (g : Segment K) (i : Inlet K) (flowIn ndot : K) (k : ℕ) (r : Run K) : Run K :=
  let p := g.props k
  let s := sorb g i ndot r.stream r.sorbs k
  let e := exchange p.fluid p.tc (ndotBulk p r.stream ndot * p.mw) (ndotTc p r.stream ndot) (-s.adsorption) p.mw r.stream
  let r1 : Run K :=
    { r with
      sorbs := Function.update r.sorbs k s
      stream := e.1
      flow := r.flow + e.2 }
  let r2 := if dblEps < s.adsorption then p.offgas.foldl (offgasOne c flowIn ndot s.adsorption) r1 else r1
  { r2 with
    heat := r2.heat + -s.adsorption * p.dh * 1000000
    cap := if p.fluid.isSome then r2.cap + p.cp g.temperature * s.loadedMass else r2.cap }

/-- `GunnsFluidSorptionBedSegment::update`, aspects/fluid/source/GunnsFluidSorptionBed.cpp:440-548. -/
def update (c : Compounds K) (g : Segment K) (i : Inlet K) (sorbs : ℕ → Sorbate K) (s : Stream K) (flow : K) : Run K :=
  let r := loop (sorbateStep c g i flow (flow / s.mw)) g.n
    { sorbs := sorbs
      stream := s
      flow := flow
      heat := i.heat
      cap := g.solidCap }
  { r with
    stream := updateMass c r.stream }

/-! ## The bed -/

/-- The checks of a segment in `validate`, aspects/fluid/source/GunnsFluidSorptionBed.cpp:872-887, given its properties. -/
def segmentAccepted (volume htc : K) : Bool := decide (¬ volume < dblEps) && decide (¬ htc < dblEps)

/-- The state carried from segment to segment. -/
structure Bed (K : Type*) where
  /-- the sorbates of each segment -/
  sorbs : ℕ → ℕ → Sorbate K
  /-- `mInternalFluid` -/
  stream : Stream K
  /-- `exitFlow` -/
  flow : K

/-- The update of segment `k` in `updateSegments`, aspects/fluid/source/GunnsFluidSorptionBed.cpp:1066-1074. -/
def bedStep (c : Compounds K) (segs : ℕ → Segment K) (inlet : ℕ → Stream K → Inlet K) (k : ℕ) (b : Bed K) : Bed K :=
  let r := update c (segs k) (inlet k b.stream) (b.sorbs k) b.stream b.flow
  { sorbs := Function.update b.sorbs k r.sorbs
    stream := r.stream
    flow := r.flow }

/-- `updateSegments`, aspects/fluid/source/GunnsFluidSorptionBed.cpp:1046-1085, once the stream holds the flow of the source
    node: the segments in order if the flow is not negative, in the reverse order if it is. -/
def updateSegments (c : Compounds K) (segs : ℕ → Segment K) (inlet : ℕ → Stream K → Inlet K) (n : ℕ) (forward : Bool)
    (b : Bed K) : Bed K :=
  loop (fun k => bedStep c segs inlet (if forward then k else n - 1 - k)) n b

/-- The pressure before the `k`th segment met by the flow, aspects/fluid/source/GunnsFluidSorptionBed.cpp:1061-1081. -/
def segmentPressure (p0 drop total : K) (volume : ℕ → K) (k : ℕ) : K :=
  loop (fun m p => p - |drop| / total * volume m) k p0

/-- The adsorbed mass of bulk compound `m`, aspects/fluid/source/GunnsFluidSorptionBed.cpp:961-983. -/
def adsorbedMass (segs : ℕ → Segment K) (sorbs : ℕ → ℕ → Sorbate K) (n m : ℕ) : K :=
  loop (fun i a => loop (fun j a => if ((segs i).props j).fluid = some m then a + (sorbs i j).loadedMass else a)
    (segs i).n a) n 0

end

end Gunns.Sorption
