import Verif.Math.Interp

/-!
# The spring accumulator

Model of `GunnsFluidAccum` (aspects/fluid/capacitor/GunnsFluidAccum.cpp): a chamber of liquid with a bellows and a spring, that moves
liquid from and to a liquid node; and the hooks that `GunnsFluidAccumGas` fills are those of the base class, which do nothing, but for
the pressure of the pressurizer, which is an input.

Simplifications: doubles are elements of an ordered field.  The liquid has one molecular weight; its density after `setTemperature` or `setPressure` is
a function of temperature and pressure, its specific enthalpy a function of temperature and the other way round.  The pressure of the
node and the enthalpy of what flows out of it are inputs.  The volumetric flow, the port directions and the messages are left out; an
update that a message tells to be aborted leaves its values as they are, as in the code.
-/

namespace Gunns.Accum

open Gunns.Interp

variable {K : Type*} [Field K] [LinearOrder K] [IsStrictOrderedRing K]

/-- Configuration, GunnsFluidAccum.hh:44-77. -/
structure Config (K : Type*) where
  /-- `mMaxConductivity` -/
  maxCond : K
  /-- `mMinConductivityScale` -/
  minScale : K
  /-- `mAccumVolume` -/
  volume : K
  /-- `mMinChamberVolPercent` -/
  minPercent : K
  /-- `mMinChamberVolDeadBandPercent` -/
  deadPercent : K
  /-- `mForceBellowsMaxRate` -/
  maxRate : K
  /-- `mEditHoldTime` -/
  holdTime : K
  /-- `mMinTemperature` -/
  minTemp : K
  /-- `mMaxTemperature` -/
  maxTemp : K
  /-- `mMaxPressure` -/
  maxPress : K
  /-- `mFillModePressureThreshold` -/
  threshold : K
  /-- `mEffCondScaleOneWayRate` -/
  oneWay : K

/-- `validate`, GunnsFluidAccum.cpp:1362-1446, with the initial bellows position. -/
def valid (c : Config K) (pos : K) : Prop :=
  0 ≤ c.maxCond ∧ dblEps ≤ c.minScale ∧ c.minScale ≤ 1 ∧ fltEps < c.volume ∧ 0 < c.minPercent ∧ c.minPercent < 50 ∧
    c.minPercent < c.deadPercent ∧ c.deadPercent < 50 ∧ 0 < c.maxRate ∧ 0 ≤ c.holdTime ∧ 0 < c.minTemp ∧ 0 < c.maxTemp ∧
    c.minTemp < c.maxTemp ∧ dblEps ≤ c.maxPress ∧ ¬ (dblEps < c.threshold ∧ c.oneWay < dblEps) ∧ 0 ≤ pos ∧ pos ≤ 1

/-- `mMinChamberVol`, GunnsFluidAccum.cpp:703. -/
def Config.minVol (c : Config K) : K := c.volume * c.minPercent / 100

/-- `mMinDeadBandVol`, GunnsFluidAccum.cpp:705. -/
def Config.deadVol (c : Config K) : K := c.volume * c.deadPercent / 100

/-- `mActiveVolRange`, GunnsFluidAccum.cpp:704 and 706: `mMaxChamberVol` is the volume. -/
def Config.range (c : Config K) : K := c.volume - c.minVol

/-- `mTotalVolume`, GunnsFluidAccum.cpp:707. -/
def Config.total (c : Config K) : K := c.volume + c.minVol

/-- The liquid. -/
structure Liquid (K : Type*) where
  /-- molecular weight -/
  weight : K
  /-- density of a temperature and a pressure -/
  density : K → K → K
  /-- specific enthalpy of a temperature -/
  enthalpy : K → K
  /-- temperature of a specific enthalpy -/
  temperature : K → K

/-- `fillModeType`, GunnsFluidAccum.hh:149-153. -/
inductive Mode | equalized | filling | draining
deriving DecidableEq

/-- `bellowsZoneType`, GunnsFluidAccum.hh:156-162. -/
inductive Zone | empty | emptyDeadband | middle | fullDeadband | full
deriving DecidableEq

/-- The accumulator, GunnsFluidAccum.hh:167-170 and 212-254. -/
structure State (K : Type*) where
  /-- `mMalfBellowsStickFlag` -/
  stick : Bool
  /-- `mMalfBellowsStickToPosFlag` -/
  stickTo : Bool
  /-- `mMalfBellowsStickToPosValue` -/
  stickPos : K
  /-- `mMalfBellowsStickToPosRate` -/
  stickRate : K
  /-- `mEditBellowsFlag` -/
  edit : Bool
  /-- `mEditBellowsPosition` -/
  editPos : K
  /-- `mEditBellowsRate` -/
  editRate : K
  /-- `mEditBellowsTimer` -/
  timer : K
  /-- `mEditTemperatureFlag` -/
  editTemp : Bool
  /-- `mEditTemperatureValue` -/
  editTempTo : K
  /-- `mHoldAccumFlag` -/
  hold : Bool
  /-- `mHoldTemperatureFlag` -/
  holdTemp : Bool
  /-- `mEditsAreReactive and !mSimultaneousEditsInProgress` -/
  reactive : Bool
  /-- `mPressurizerOrideBellowsFlag` -/
  oride : Bool
  /-- `mBellowsStuck` -/
  stuck : Bool
  /-- `mBellowsPosition` -/
  pos : K
  /-- `mLiquidVolume` -/
  liquid : K
  /-- `mPressurizerVolume` -/
  pressurizer : K
  /-- mass of `mInternalFluid` -/
  mass : K
  /-- its temperature -/
  temp : K
  /-- its pressure -/
  press : K
  /-- its density -/
  density : K
  /-- `mSpringCoeff0`, `mSpringCoeff1`, `mSpringCoeff2` -/
  spring0 : K
  spring1 : K
  spring2 : K
  /-- `mAccelPressureHead` -/
  head : K
  /-- `mLiquidHousingQ` -/
  housing : K
  /-- `mLiqCapacitance` -/
  capacitance : K
  /-- `mEffConductivityScale` -/
  scale : K
  /-- `mEffCondScaleOneWayRate` -/
  oneWay : K
  /-- `mEffectiveConductivity` -/
  cond : K
  /-- `mAdmittanceMatrix[3]` -/
  admittance : K
  /-- `mFillMode` -/
  mode : Mode
  /-- `mBellowsZone` -/
  zone : Zone
  /-- `mFlux` -/
  flux : K
  /-- `mFlowRate` -/
  flow : K

/-- `rampValue`, GunnsFluidAccum.cpp:812-840, with a target and a rate already limited: the new value. -/
def rampTo (dt current target rate : K) : K :=
  if current < target then min (current + rate * dt) target
  else if target < current then max (current - rate * dt) target
  else current

/-- `updatePressurizerVolume`, GunnsFluidAccum.cpp:1327-1336. -/
def pressurizerVolume (c : Config K) (liquid : K) : K :=
  if c.volume ≤ liquid then c.minVol
  else if liquid ≤ c.minVol then c.volume
  else limitRange c.minVol (c.total - liquid) c.volume

/-- `deriveChamberVolumes`, GunnsFluidAccum.cpp:527-532. -/
def deriveChamberVolumes (c : Config K) (s : State K) : State K :=
  let v := limitRange c.minVol (s.pos * c.range + c.minVol) c.volume
  { s with
    liquid := v
    pressurizer := pressurizerVolume c v }

/-- `computeMass(volume, density)`, GunnsFluidAccum.cpp:454-457. -/
def massOf (volume density : K) : K := max (volume * density) dblEps

/-- `m100EpsilonLimit`. -/
def eps100 : K := 100 * dblEps

/-- `computeMass(dt, flowRate, currentMass)`, GunnsFluidAccum.cpp:468-475. -/
def massAfter (dt flow mass : K) : K := max (if eps100 < |flow| then mass + flow * dt else mass) dblEps

/-- `setTemperature` of the internal fluid. -/
def setTemp (f : Liquid K) (t : K) (s : State K) : State K :=
  { s with
    temp := t
    density := f.density t s.press }

/-- What a pass finds outside: the step, the pressure of the node and the specific enthalpy of what flows out of it, both before and
after the solution of the network, and the pressure of the pressurizer. -/
structure Pass (K : Type*) where
  dt : K
  before : K
  after : K
  enthalpy : K
  gas : K

/-- `computeTemperature`, GunnsFluidAccum.cpp:488-520. -/
def computeTemperature (c : Config K) (f : Liquid K) (q : Pass K) (s : State K) : K :=
  let t := if s.holdTemp then s.temp
    else
      let new := massAfter q.dt s.flow s.mass
      if 0 < new then
        let heat := if s.flow < -eps100 then s.flow * f.enthalpy s.temp
          else if eps100 < s.flow then s.flow * q.enthalpy else 0
        f.temperature ((s.mass * f.enthalpy s.temp + (s.housing + heat) * q.dt) / new)
      else s.temp
  limitRange c.minTemp t c.maxTemp

/-- `updateLiqChamber`, GunnsFluidAccum.cpp:1230-1262. -/
def updateLiqChamber (c : Config K) (f : Liquid K) (q : Pass K) (s : State K) : State K :=
  if s.hold then s
  else
    let m := massAfter q.dt s.flow s.mass
    let s1 : State K := { setTemp f (computeTemperature c f q s) s with mass := m }
    let v := if 0 < s1.density then limitRange c.minVol (m / s1.density) c.volume else s1.liquid
    let p := if 0 < c.range then limitRange 0 ((v - c.minVol) / c.range) 1 else s1.pos
    { s1 with
      liquid := v
      pressurizer := pressurizerVolume c v
      pos := p }

/-- `forceLiqChamber`, GunnsFluidAccum.cpp:613-652, after the ramp, whose new position is given. -/
def forceLiqChamber (c : Config K) (f : Liquid K) (q : Pass K) (pos : K) (updateTemp : Bool) (s : State K) : State K :=
  let s1 := deriveChamberVolumes c { s with pos := pos }
  if updateTemp then
    let s2 := { s1 with mass := massOf s1.liquid s1.density }
    setTemp f (computeTemperature c f q s2) s2
  else
    let s2 := setTemp f s1.temp s1
    { s2 with mass := massOf s2.liquid s2.density }

/-- `editLiqChamber`, GunnsFluidAccum.cpp:541-553, with `processTimer`, 786-794. -/
def editLiqChamber (c : Config K) (f : Liquid K) (q : Pass K) (s : State K) : State K :=
  let target := limitRange 0 s.editPos 1
  let rate := limitRange 0 s.editRate c.maxRate
  let pos := rampTo q.dt s.pos target rate
  let s1 := forceLiqChamber c f q pos s.reactive
    { s with
      editPos := target
      editRate := rate }
  if target = pos then
    if s1.timer < c.holdTime then { s1 with timer := s1.timer + q.dt } else { s1 with edit := false }
  else s1

/-- `failLiqChamber`, GunnsFluidAccum.cpp:590-601. -/
def failLiqChamber (c : Config K) (f : Liquid K) (q : Pass K) (s : State K) : State K :=
  if s.stick then { s with stuck := true }
  else
    let target := limitRange 0 s.stickPos 1
    let rate := limitRange 0 s.stickRate c.maxRate
    let pos := rampTo q.dt s.pos target rate
    let s1 := forceLiqChamber c f q pos true
      { s with
        stickPos := target
        stickRate := rate }
    { s1 with stuck := decide (target = pos) }

/-- `resetEditFlagsAndTimers`, GunnsFluidAccum.cpp:847-853. -/
def resetEdits (s : State K) : State K :=
  { s with
    edit := false
    timer := 0
    editTemp := false }

/-- `editTemperature`, GunnsFluidAccum.cpp:572-581 and 1193-1198. -/
def editTemperature (c : Config K) (f : Liquid K) (s : State K) : State K :=
  if s.editTemp then
    let t := limitRange c.minTemp s.editTempTo c.maxTemp
    let s1 := setTemp f t { s with editTempTo := t }
    { s1 with
      mass := massOf s1.liquid s1.density
      editTemp := false }
  else s

/-- `mSpringPressure`, GunnsFluidAccum.cpp:1307. -/
def springPressure (s : State K) : K := s.pos * s.pos * s.spring2 + s.pos * s.spring1 + s.spring0

/-- `updatePressure`, GunnsFluidAccum.cpp:1304-1319; `setPressure` (PolyFluid.cpp:653-666) recomputes the density. -/
def updatePressure (c : Config K) (f : Liquid K) (q : Pass K) (s : State K) : State K :=
  let p := limitRange dblEps (springPressure s + s.head + q.gas) c.maxPress
  { s with
    press := p
    density := f.density s.temp p }

/-- `computeFlowRate`, GunnsFluidAccum.cpp:369-382, for a liquid of one molecular weight. -/
def flowRate (f : Liquid K) (flux : K) : K := if 0 < flux then flux * f.weight else if flux < 0 then flux * f.weight else 0

/-- The choice in `updateFluid`, GunnsFluidAccum.cpp:1199-1214. -/
def chamber (c : Config K) (f : Liquid K) (q : Pass K) (s : State K) : State K :=
  if s.oride then s
  else if s.stick = true ∨ s.stickTo = true then failLiqChamber c f q (resetEdits s)
  else if s.edit then editLiqChamber c f q s
  else updateLiqChamber c f q { s with timer := 0 }

/-- `updateFluid`, GunnsFluidAccum.cpp:1181-1221, but for the transport. -/
def updateFluid (c : Config K) (f : Liquid K) (q : Pass K) (s : State K) : State K :=
  let s1 := { s with
    stuck := false
    flow := flowRate f s.flux }
  updatePressure c f q (chamber c f q (editTemperature c f s1))

/-- `transportAccumFluid`, GunnsFluidAccum.cpp:928-940: the mass rate out of the node (negative into it). -/
def transported (s : State K) : K := if eps100 < s.flow then s.flow else if s.flow < -eps100 then s.flow else 0

/-- `updateCapacitance`, GunnsFluidAccum.cpp:958-968. -/
def updateCapacitance (c : Config K) (f : Liquid K) (s : State K) : State K :=
  let slope := 2 * s.pos * s.spring2 + s.spring1 + s.head / max s.pos dblEps
  { s with capacitance := if dblEps < slope then 1 / slope * c.range * s.density / f.weight else 0 }

/-- The fill mode, GunnsFluidAccum.cpp:1037-1043. -/
def fillMode (c : Config K) (inside outside : K) : Mode :=
  if c.threshold < outside - inside then .filling
  else if c.threshold < inside - outside then .draining
  else .equalized

/-- The zone, GunnsFluidAccum.cpp:1045-1057. -/
def bellowsZone (c : Config K) (liquid : K) : Zone :=
  if liquid ≤ c.minVol then .empty
  else if c.volume ≤ liquid then .full
  else if liquid < c.deadVol then .emptyDeadband
  else if c.volume - (c.deadVol - c.minVol) < liquid then .fullDeadband
  else .middle

/-- Scale in the dead band at the empty end, GunnsFluidAccum.cpp:1101 and 1132. -/
def emptyScale (c : Config K) (s : State K) : K := limitRange 0 ((s.liquid - c.minVol) / (c.deadVol - c.minVol)) 1

/-- Scale in the dead band at the full end, GunnsFluidAccum.cpp:1077 and 1137. -/
def fullScale (c : Config K) (s : State K) : K := limitRange 0 ((s.pressurizer - c.minVol) / (c.deadVol - c.minVol)) 1

/-- The ramp of the scale in one-way flow, GunnsFluidAccum.cpp:1089-1096 and 1113-1120; the rate is limited in place. -/
def oneWayRamp (dt : K) (s : State K) : State K :=
  let rate := limitRange 0 s.oneWay (if 0 < dt then 1 / dt else 0)
  { s with
    oneWay := rate
    scale := rampTo dt s.scale 1 rate }

/-- The scale, GunnsFluidAccum.cpp:1060-1148, with mode and zone set. -/
def setScale (c : Config K) (dt : K) (s : State K) : State K :=
  if s.stuck then { s with scale := 0 }
  else if s.zone = .middle ∨ s.oride = true ∨ s.edit = true then { s with scale := 1 }
  else if dblEps < c.threshold ∧ s.mode ≠ .equalized then
    if s.mode = .filling then
      if s.zone = .fullDeadband then { s with scale := fullScale c s }
      else if s.zone = .full then { s with scale := 0 }
      else oneWayRamp dt s
    else
      if s.zone = .emptyDeadband then { s with scale := emptyScale c s }
      else if s.zone = .empty then { s with scale := 0 }
      else oneWayRamp dt s
  else
    if s.zone = .emptyDeadband then { s with scale := emptyScale c s }
    else if s.zone = .fullDeadband then { s with scale := fullScale c s }
    else if (s.zone = .empty ∧ s.mode = .filling) ∨ (s.zone = .full ∧ s.mode = .draining) then { s with scale := c.minScale }
    else { s with scale := 0 }

/-- `updateEffConductivityScale`, GunnsFluidAccum.cpp:1014-1149. -/
def updateScale (c : Config K) (q : Pass K) (s : State K) : State K :=
  if c.deadVol - c.minVol ≤ 0 then s
  else setScale c q.dt { s with
    mode := fillMode c s.press q.before
    zone := bellowsZone c s.liquid }

/-- `computeConductivity` with no least conductivity, GunnsFluidAccum.cpp:336-357. -/
def computeConductivity (c : Config K) (dt capacitance current : K) : K :=
  if dblEps < dt then limitRange 0 (capacitance / dt) c.maxCond else current

/-- `updateEffectiveConductivity`, GunnsFluidAccum.cpp:1159-1173. -/
def updateConductivity (c : Config K) (q : Pass K) (s : State K) : State K :=
  let s1 := updateScale c q s
  { s1 with cond := limitRange 0 (s1.scale * computeConductivity c q.dt s1.capacitance s1.cond) c.maxCond }

/-- `step` and `updateState`, GunnsFluidAccum.cpp:910-917 and 1344-1351, with `buildConductance`, 263-280; `limit` is
`mConductanceLimit`. -/
def step (c : Config K) (f : Liquid K) (limit : K) (q : Pass K) (s : State K) : State K :=
  let s1 := updateConductivity c q (updateCapacitance c f s)
  { s1 with admittance := limitRange 0 s1.cond limit }

/-- `computeFlows`, GunnsFluidAccum.cpp:433-444 and `computeFlux`, 394-399. -/
def computeFlows (q : Pass K) (s : State K) : State K := { s with flux := (q.after - s.press) * s.admittance }

/-- A pass: step, solution of the network, flows and transport. -/
def pass (c : Config K) (f : Liquid K) (limit : K) (q : Pass K) (s : State K) : State K :=
  updateFluid c f q (computeFlows q (step c f limit q s))

/-- What a user can do between passes: malfunctions, edits, holds, spring, acceleration and heat. -/
inductive Command (K : Type*)
  | stick (on : Bool)
  | stickTo (on : Bool) (pos rate : K)
  | edit (on : Bool) (pos rate : K)
  | editTemp (t : K)
  | holds (chamber temp reactive : Bool)
  | springs (a b c : K)
  | head (p : K)
  | housing (x : K)

/-- GunnsFluidAccum.cpp:883-901, GunnsFluidAccum.hh:417-455, and the public flags. -/
def obey (x : Command K) (s : State K) : State K :=
  match x with
  | .stick on => { s with stick := on }
  | .stickTo on p r =>
    { s with
      stickTo := on
      stickPos := p
      stickRate := r }
  | .edit on p r =>
    { s with
      edit := on
      editPos := p
      editRate := r }
  | .editTemp t =>
    { s with
      editTemp := true
      editTempTo := t }
  | .holds a b r =>
    { s with
      hold := a
      holdTemp := b
      reactive := r }
  | .springs a b d =>
    { s with
      spring0 := a
      spring1 := b
      spring2 := d }
  | .head p => { s with head := p }
  | .housing x => { s with housing := x }

/-- Commands and passes, one after the other. -/
def run (c : Config K) (f : Liquid K) (limit : K) : List (Command K ⊕ Pass K) → State K → State K
  | [], s => s
  | .inl x :: es, s => run c f limit es (obey x s)
  | .inr q :: es, s => run c f limit es (pass c f limit q s)

end Gunns.Accum
