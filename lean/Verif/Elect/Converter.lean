import Verif.Elect.Switch
import Verif.Link.Elements

/-!
# Model of the electrical converter
(aspects/electrical/Converter/GunnsElectConverterInput.cpp and .hh, GunnsElectConverterOutput.cpp and .hh)

A converter is a pair of links, each with one port: the input loads its node with the power the output side asks for,
the output controls its node.  The pair shares voltage, power and two validity flags by pointers.

Simplifications, common to the whole file:

* both links are in the same network and know each other (`mOutputLink`, `mInputLink` set), or neither does
  (`linked` false; then the values of the other side are whatever the user last put in);
* the casts to `float` are left out: the values given here are those after the cast; limits of trips are exact;
* a sensor is a function from the true value to the value sensed.  Noise and drift of the sensor are left out;
  `sense` is called with a time step of zero;
* the square root of the POWER regulator is the argument `sq`;
* user port commands (`processUserPortCommand`) are left out: whether a link is on the ground node is a constant;
* names, the init flag, the admittance update flag and `mPotentialDrop` are left out;
* the efficiency table is a function (`TsLinearInterpolator::get`, C36).
-/

namespace Gunns.Conv

open Gunns Gunns.Elements

/-- `GunnsElectConverterInput`, GunnsElectConverterInput.hh. -/
structure In (K : Type _) where
  /-- `mNodeMap[0] == getGroundNodeIndex()` -/
  ground : Bool
  /-- `mEnabled` -/
  enabled : Bool
  /-- `mMalfBlockageFlag` -/
  blockFlag : Bool
  /-- `mMalfBlockageValue` -/
  blockValue : K
  /-- `mEfficiencyTable` -/
  table : Option (K → K)
  /-- `mInputVoltageSensor` -/
  sensor : Option (K → K)
  /-- `mReferencePower` -/
  refPower : K
  /-- `mInputUnderVoltageTrip` -/
  uv : Sw.Trip K
  /-- `mInputOverVoltageTrip` -/
  ov : Sw.Trip K
  /-- `mResetTrips` -/
  resetCmd : Bool
  /-- `mLeadsInterface` -/
  leads : Bool
  /-- `mInputVoltage` -/
  voltage : K
  /-- `mInputPower` -/
  load : K
  /-- `mOverloadedState` -/
  overloaded : Bool
  /-- `mInputVoltageValid` -/
  voltageValid : Bool
  /-- `mInputPowerValid` -/
  powerValid : Bool
  /-- `mConverterEfficiency` -/
  efficiency : K
  /-- `mTotalPowerLoss` -/
  loss : K
  /-- `mPotentialVector[0]` -/
  pot : K
  /-- `mAdmittanceMatrix[0]` -/
  adm : K
  /-- `mSourceVector[0]` -/
  source : K
  /-- `mFlux` -/
  flux : K
  /-- `mPower` -/
  power : K

/-- `GunnsElectConverterOutput::RegulatorType`. -/
inductive Reg where
  | voltage | transformer | current | power
deriving DecidableEq

/-- `GunnsElectConverterOutput::LimitStates`. -/
inductive Lim where
  | no | oc | ov | uv
deriving DecidableEq

/-- `GunnsElectConverterOutput`, GunnsElectConverterOutput.hh. -/
structure Out (K : Type _) where
  /-- `mNodeMap[0] == getGroundNodeIndex()` -/
  ground : Bool
  /-- `mRegulatorType` -/
  reg : Reg
  /-- `mOutputConductance` -/
  conductance : K
  /-- `mConverterEfficiency` -/
  efficiency : K
  /-- `mEnableLimiting` -/
  limiting : Bool
  /-- `mStateFlipsLimit` -/
  flipsLimit : Nat
  /-- `mEnabled` -/
  enabled : Bool
  /-- `mMalfBlockageFlag` -/
  blockFlag : Bool
  /-- `mMalfBlockageValue` -/
  blockValue : K
  /-- `mOutputVoltageSensor` -/
  vSensor : Option (K → K)
  /-- `mOutputCurrentSensor` -/
  iSensor : Option (K → K)
  /-- `mOutputOverVoltageTrip` -/
  ov : Sw.Trip K
  /-- `mOutputUnderVoltageTrip` -/
  uv : Sw.Trip K
  /-- `mOutputOverCurrentTrip` -/
  oc : Sw.Trip K
  /-- `mResetTrips` -/
  resetCmd : Bool
  /-- `mLeadsInterface` -/
  leads : Bool
  /-- `mSetpoint` -/
  setpoint : K
  /-- `mInputVoltage` -/
  voltage : K
  /-- `mInputPower` -/
  inputPower : K
  /-- `mOutputPowerAvailable` -/
  available : Bool
  /-- `mOutputChannelLoss` -/
  channelLoss : K
  /-- `mTotalPowerLoss` -/
  loss : K
  /-- `mInputVoltageValid` -/
  voltageValid : Bool
  /-- `mInputPowerValid` -/
  powerValid : Bool
  /-- `mReverseBiasState` -/
  reverse : Bool
  /-- `mReverseBiasFlips` -/
  reverseFlips : Nat
  /-- `mLimitState` -/
  limit : Lim
  /-- `mLimitStateFlips` -/
  limitFlips : Nat
  /-- `mSourceVoltage` -/
  sourceVoltage : K
  /-- `mLoadResistance` -/
  resistance : K
  /-- `mPotentialVector[0]` -/
  pot : K
  /-- `mAdmittanceMatrix[0]` -/
  adm : K
  /-- `mSourceVector[0]` -/
  source : K
  /-- `mFlux` -/
  flux : K
  /-- `mPower` -/
  power : K

/-- The two links; `linked` says that they know each other. -/
structure Pair (K : Type _) where
  inp : In K
  out : Out K
  linked : Bool

variable {K : Type _} [Field K] [LinearOrder K]

/-! ## The output link -/

/-- `applyBlockage`, GunnsElectConverterOutput.hh:501-507. -/
def Out.block (o : Out K) (x : K) : K :=
  if o.blockFlag then x * (1 - limitRange 0 o.blockValue 1) else x

/-- `isAnyTrips`, GunnsElectConverterOutput.hh:514-518. -/
def Out.tripped (o : Out K) : Bool := o.ov.tripped || o.oc.tripped || o.uv.tripped

/-- `isVoltageRegulator`, GunnsElectConverterOutput.hh:525-528. -/
def Reg.isVoltage (r : Reg) : Bool := r = .voltage || r = .transformer

/-- `computeFlux`, GunnsElectConverterOutput.hh:346-349. -/
def Out.computeFlux (o : Out K) : Out K := { o with flux := max 0 (o.source - o.pot * o.adm) }

/-- `estimateLoad`, GunnsElectConverterOutput.hh:486-494. -/
def Out.estimateLoad (o : Out K) : Out K :=
  let o := o.computeFlux
  { o with resistance := if o.flux > dblEps ∧ o.pot > dblEps then o.pot / o.flux else 1 }

/-- `computeInputPower`, GunnsElectConverterOutput.cpp:804-830, called with `mInputPower` of this link.  The input link
calls it with its own `mInputPower` (see `computeInputPowerFor`). -/
def Out.computePower (o : Out K) : K × Out K :=
  if o.ground || !o.powerValid then
    (0, { o with
      power := 0
      channelLoss := 0
      loss := 0 })
  else
    let o := o.computeFlux
    let power := o.flux * o.pot
    let channel := o.flux * o.flux / max dblEps o.conductance
    let inputPower := (power + channel) / limitRange dblEps o.efficiency 1
    (inputPower, { o with
      power := power
      channelLoss := channel
      loss := inputPower - power })

/-- The call `computeInputPower(mInputPower)` of the output link itself, GunnsElectConverterOutput.cpp:393, 529. -/
def Out.ownPower (o : Out K) : Out K := { o.computePower.2 with inputPower := o.computePower.1 }

/-- `computeRegulationSources`, GunnsElectConverterOutput.cpp:453-486: conductance, voltage, current. -/
def Out.sources (sq : K → K) (o : Out K) : K × K × K :=
  if o.reg.isVoltage then
    if o.limit = .oc then (fltEps, 0, o.oc.limit)
    else (o.block o.conductance, if o.reg = .transformer then o.setpoint * o.voltage else o.setpoint, 0)
  else if o.limit = .ov then (o.block o.conductance, o.ov.limit, 0)
  else if o.limit = .uv then (o.block o.conductance, o.uv.limit, 0)
  else
    (fltEps, 0,
      if o.reg = .current then (if o.limit = .oc then o.block o.oc.limit else o.block o.setpoint)
      else if o.setpoint > 0 ∧ o.resistance > 0 then o.block (sq (o.setpoint / o.resistance)) else 0)

/-- `mConductanceLimit`, GunnsBasicLink.cpp:40. -/
def condLimit : K := 10 ^ 15

/-- The end of `minorStep`, GunnsElectConverterOutput.cpp:422-441: load estimate, sources and contributions to the
network. -/
def Out.contribute (sq : K → K) (o : Out K) : Out K :=
  let o := o.estimateLoad
  let s := if o.enabled && o.available && !o.tripped then o.sources sq else (0, 0, 0)
  let g := limitRange 0 (if o.reverse then 0 else s.1) condLimit
  { o with
    sourceVoltage := s.2.1
    adm := g
    source := s.2.1 * g + s.2.2 }

/-- `updateBias`, GunnsElectConverterOutput.cpp:594-619. -/
def Out.updateBias (o : Out K) (result : SolRes) (convergedStep : Nat) (noReverse : Bool) : SolRes × Out K :=
  let n : Out K :=
    if o.limit = .oc ∨ (o.limit = .no ∧ o.reg.isVoltage = false) then { o with reverse := false }
    else if o.pot ≤ o.sourceVoltage then { o with reverse := false }
    else if convergedStep > 0 ∧ o.reverseFlips < o.flipsLimit ∧ (o.reverse || noReverse) = false then
      { o with
        reverse := true
        reverseFlips := o.reverseFlips + 1 }
    else o
  if o.reverse ≠ n.reverse then (.reject, { n with inputPower := 0 }) else (result, n)

/-- `rejectWithLimitState`, GunnsElectConverterOutput.cpp:628-636; the result is REJECT. -/
def Out.rejectWith (o : Out K) (state : Lim) : SolRes × Out K :=
  (.reject, { o with
    limit := state
    limitFlips := if state ≠ .no then o.limitFlips + 1 else o.limitFlips })

/-- `computeVoltageControlSetpoint`, GunnsElectConverterOutput.cpp:770-775. -/
def Out.voltageSetpoint (o : Out K) : K := if o.reg = .transformer then o.setpoint * o.voltage else o.setpoint

/-- `computeCurrentControlSetpoint`, GunnsElectConverterOutput.cpp:785-794. -/
def Out.currentSetpoint (sq : K → K) (o : Out K) : K :=
  if o.reg = .current then o.block o.setpoint
  else if o.setpoint > 0 ∧ o.resistance > 0 then o.block (sq (o.setpoint / o.resistance)) else 0

/-- `updateCurrentLimitState`, GunnsElectConverterOutput.cpp:672-684. -/
def Out.currentLimit (o : Out K) (result : SolRes) (voltage current : K) : SolRes × Out K :=
  if o.limit = .oc ∧ voltage > o.voltageSetpoint then o.rejectWith .no
  else if o.limit = .no ∧ (o.oc.limit > 0 ∧ o.limitFlips < o.flipsLimit) ∧ current > o.oc.limit then o.rejectWith .oc
  else (result, o)

/-- `updateVoltageLimitState`, GunnsElectConverterOutput.cpp:696-760: `noReverseBias`, result, link. -/
def Out.voltageLimit (sq : K → K) (o : Out K) (result : SolRes) (voltage current : K) : Bool × SolRes × Out K :=
  let canOv := o.ov.limit > 0 ∧ o.limitFlips < o.flipsLimit
  let canUv := o.uv.limit > 0 ∧ o.limitFlips < o.flipsLimit
  let canOc := o.oc.limit > 0 ∧ o.limitFlips < o.flipsLimit ∧ o.uv.limit > 0
  match o.limit with
  | .oc =>
    if canOv ∧ voltage > o.ov.limit then (false, o.rejectWith .ov)
    else if voltage > o.uv.limit then (false, o.rejectWith .no)
    else (false, result, o)
  | .uv =>
    if canOc ∧ current > o.oc.limit then (false, o.rejectWith .oc)
    else if canOv ∧ voltage > o.ov.limit then (false, o.rejectWith .ov)
    else if voltage > o.uv.limit ∨ current < o.currentSetpoint sq then (false, o.rejectWith .no)
    else (false, result, o)
  | .ov =>
    if canUv ∧ voltage < o.uv.limit then (false, o.rejectWith .uv)
    else if current > o.currentSetpoint sq ∨ 0 = o.currentSetpoint sq then (false, o.rejectWith .uv)
    else (false, result, o)
  | .no =>
    if canOv ∧ voltage > o.ov.limit then (true, o.rejectWith .ov)
    else if canUv ∧ voltage < o.uv.limit then (true, o.rejectWith .uv)
    else (false, result, o)

/-- `updateLimitState`, GunnsElectConverterOutput.cpp:647-662: `noReverseBias`, result, link. -/
def Out.updateLimit (sq : K → K) (o : Out K) (result : SolRes) (voltage current : K) : Bool × SolRes × Out K :=
  if o.enabled && o.limiting then
    if o.reg.isVoltage then (false, o.currentLimit result voltage current) else o.voltageLimit sq result voltage current
  else (false, result, { o with limit := .no })

/-- The trip checks of `confirmSolutionAcceptable`, GunnsElectConverterOutput.cpp:551-559. -/
def Out.checkTrips (o : Out K) (result : SolRes) (voltage current : K) (convergedStep : Nat) : SolRes × Out K :=
  if o.enabled then
    let r :=
      if !(o.limiting && !o.reg.isVoltage) then
        let a := o.ov.check true result voltage convergedStep
        let b := o.uv.check false a.2.1 voltage convergedStep
        (b.2.1, { o with
          ov := a.1
          uv := b.1 })
      else (result, o)
    if !o.limiting then
      let c := r.2.oc.check true r.1 current convergedStep
      (c.2.1, { r.2 with oc := c.1 })
    else r
  else (result, o)

/-- What a sensor makes of the true value; without sensor the true value is used. -/
def sensed (sensor : Option (K → K)) (truth : K) : K :=
  match sensor with
  | some f => f truth
  | none => truth

/-- The part of `confirmSolutionAcceptable` the output link decides by itself, GunnsElectConverterOutput.cpp:525-563. -/
def Out.judge (sq : K → K) (o : Out K) (convergedStep : Nat) : SolRes × Out K :=
  let r := o.updateBias .confirm convergedStep false
  if convergedStep > 0 ∧ r.1 ≠ .reject then
    let o := r.2.ownPower
    let voltage := sensed o.vSensor o.pot
    let current := sensed o.iSensor o.flux
    let t := o.checkTrips r.1 voltage current convergedStep
    let l := t.2.updateLimit sq t.1 voltage current
    l.2.2.updateBias l.2.1 convergedStep l.1
  else r

/-! ## The input link -/

/-- `computeInputVoltage`, GunnsElectConverterInput.cpp:534-543. -/
def In.computeVoltage (i : In K) : K :=
  if !i.enabled || i.ov.tripped || i.uv.tripped || (i.blockFlag && decide (i.blockValue ≥ 1)) then 0 else max 0 i.pot

/-- The efficiency of `minorStep`, GunnsElectConverterInput.cpp:367-377, by `mInputPower`. -/
def In.efficiencyNow (i : In K) : K :=
  let e := match i.table with
    | some f => f (i.load / max dblEps i.refPower)
    | none => 1
  limitRange dblEps (if i.blockFlag then e * (1 - limitRange 0 i.blockValue 1) else e) 1

/-- The current of `minorStep`, GunnsElectConverterInput.cpp:384-405, for the scaled load. -/
def In.current (i : In K) (scaled : K) : K :=
  if i.enabled && !(i.overloaded || i.ov.tripped || i.uv.tripped) then
    if i.pot < 0 then -i.source
    else if i.uv.limit > dblEps then scaled / max i.voltage (99 / 100 * i.uv.limit)
    else if i.voltage > dblEps then scaled / i.voltage
    else 0
  else 0

/-- The end of `minorStep`, GunnsElectConverterInput.cpp:367-413. -/
def In.contribute (i : In K) : In K :=
  let e := i.efficiencyNow
  let scaled := i.load / e
  { i with
    efficiency := e
    loss := scaled - i.load
    adm := 0
    source := min 0 (-i.current scaled) }

/-- The trip checks of `confirmSolutionAcceptable`, GunnsElectConverterInput.cpp:472-475. -/
def In.checkTrips (i : In K) (voltage : K) (convergedStep : Nat) : SolRes × In K :=
  if i.enabled then
    let a := i.ov.check true .confirm voltage convergedStep
    let b := i.uv.check false a.2.1 voltage convergedStep
    (b.2.1, { i with
      ov := a.1
      uv := b.1 })
  else (.confirm, i)

/-- What the input link decides by itself after convergence, GunnsElectConverterInput.cpp:460-488. -/
def In.judge (i : In K) (convergedStep : Nat) : SolRes × In K :=
  let t := i.checkTrips (sensed i.sensor i.pot) convergedStep
  let r : SolRes × In K :=
    if t.1 = .confirm ∧ (t.2.ov.tripped || t.2.uv.tripped || t.2.overloaded) = false then
      let i : In K := { t.2 with voltage := t.2.computeVoltage }
      if i.load > 0 ∧ i.pot ≤ 0 then (.reject, { i with overloaded := true }) else (t.1, i)
    else t
  (r.1, { r.2 with voltageValid := decide (r.1 ≠ .reject) })

/-- `computeFlows`, GunnsElectConverterInput.cpp:422-436; the influx of the node is left out. -/
def In.flows (i : In K) : In K :=
  if i.ground then i
  else
    let flux := i.pot * i.adm - i.source
    { i with
      voltage := i.computeVoltage
      flux := flux
      power := -flux * i.pot }

/-- `resetTrips`, GunnsElectConverterInput.hh:262-266. -/
def In.resetTrips (i : In K) : In K :=
  { i with
    uv := i.uv.reset
    ov := i.ov.reset }

/-! ## The pair: what the solver calls -/

/-- `GunnsElectConverterInput::minorStep`, GunnsElectConverterInput.cpp:334-415. -/
def Pair.inMinor (p : Pair K) : Pair K :=
  if p.inp.ground then
    { p with inp := { p.inp with
        voltage := 0
        load := 0
        adm := 0
        source := 0
        flux := 0
        power := 0 } }
  else
    let i := { p.inp with voltage := p.inp.computeVoltage }
    if p.linked then
      if i.leads then
        let w := p.out.computePower
        { p with
          inp := { i with
            load := w.1
            powerValid := p.out.powerValid }.contribute
          out := { w.2 with voltage := i.voltage } }
      else { p with inp := { i with powerValid := p.out.powerValid }.contribute }
    else { p with inp := { i with powerValid := true }.contribute }

/-- `GunnsElectConverterInput::step`, GunnsElectConverterInput.cpp:310-324. -/
def Pair.inStep (p : Pair K) : Pair K :=
  let i := { p.inp with overloaded := false }
  let i := if i.resetCmd then { i.resetTrips with resetCmd := false } else i
  { p with inp := i }.inMinor

/-- `GunnsElectConverterInput::confirmSolutionAcceptable`, GunnsElectConverterInput.cpp:446-501. -/
def Pair.inConfirm (p : Pair K) (convergedStep : Nat) : SolRes × Pair K :=
  if p.inp.ground then (.confirm, { p with inp := { p.inp with voltageValid := false } })
  else if convergedStep = 0 then (.confirm, { p with inp := { p.inp with voltageValid := true } })
  else
    let r := p.inp.judge convergedStep
    let i := if p.linked then { r.2 with powerValid := p.out.powerValid } else r.2
    (if i.powerValid then r.1 else .reject, { p with inp := i })

/-- `GunnsElectConverterInput::resetLastMinorStep`, GunnsElectConverterInput.cpp:516-523. -/
def Pair.inReset (p : Pair K) (convergedStep : Nat) : Pair K :=
  if convergedStep > 0 ∧ p.inp.pot < 0 then { p with inp := { p.inp with pot := 0 } } else p

/-- `GunnsElectConverterOutput::minorStep`, GunnsElectConverterOutput.cpp:382-443. -/
def Pair.outMinor (sq : K → K) (p : Pair K) (minorStep : Nat) : Pair K :=
  if p.out.ground then
    { p with out := { p.out with
        sourceVoltage := 0
        voltage := 0
        inputPower := 0
        adm := 0
        source := 0 } }
  else
    let o := p.out.ownPower
    let p : Pair K :=
      if p.linked then
        if o.leads then
          { p with
            inp := { p.inp with load := o.inputPower }
            out := { o with
              voltage := p.inp.computeVoltage
              voltageValid := p.inp.voltageValid } }
        else { p with out := { o with voltageValid := p.inp.voltageValid } }
      else { p with out := { o with voltageValid := true } }
    let o := if minorStep = 1 then { p.out with available := decide (p.out.voltage > 0) } else p.out
    { p with out := o.contribute sq }

/-- `GunnsElectConverterOutput::step`, GunnsElectConverterOutput.cpp:361-374; `resetTrips` (.hh:333-341) also resets the
trips of the input. -/
def Pair.outStep (sq : K → K) (p : Pair K) : Pair K :=
  let p : Pair K :=
    if p.out.resetCmd then
      { p with
        inp := if p.linked then p.inp.resetTrips else p.inp
        out := { p.out with
          ov := p.out.ov.reset
          uv := p.out.uv.reset
          oc := p.out.oc.reset
          resetCmd := false } }
    else p
  { p with out := { p.out with
      reverseFlips := 0
      limitFlips := 0 } }.outMinor sq 1

/-- `GunnsElectConverterOutput::confirmSolutionAcceptable`, GunnsElectConverterOutput.cpp:516-578. -/
def Pair.outConfirm (sq : K → K) (p : Pair K) (convergedStep : Nat) : SolRes × Pair K :=
  if p.out.ground then (.confirm, { p with out := { p.out with powerValid := false } })
  else
    let r := p.out.judge sq convergedStep
    let o := { r.2 with powerValid := decide (r.1 ≠ .reject) }
    let o := if p.linked then { o with voltageValid := p.inp.voltageValid } else o
    (if o.voltageValid then r.1 else .reject, { p with out := o })

/-- `GunnsElectConverterOutput::resetLastMinorStep`, GunnsElectConverterOutput.hh:542-547. -/
def Pair.outReset (p : Pair K) : Pair K := { p with out := { p.out with powerValid := false } }

/-- `GunnsElectConverterOutput::computeFlows`, GunnsElectConverterOutput.cpp:493-506; the influx of the node is left
out. -/
def Out.flows (o : Out K) : Out K := if o.ground then { o with flux := 0 } else o.computeFlux

/-- The solver gives the links the potentials of their nodes (`receivePotential`); ground is zero. -/
def Pair.setPots (p : Pair K) (vIn vOut : K) : Pair K :=
  { p with
    inp := { p.inp with pot := if p.inp.ground then 0 else vIn }
    out := { p.out with pot := if p.out.ground then 0 else vOut } }

/-- `GunnsElectConverterInput::validate`, GunnsElectConverterInput.cpp:259-285: `false` is an exception. -/
def In.valid (i : In K) : Bool :=
  !(decide (i.uv.limit > i.ov.limit) && decide (i.ov.limit ≠ 0)) &&
  match i.table with
  | some f =>
    (List.range 11).all (fun k => decide (dblEps ≤ f (1 / 10 * ((k : Nat) : K))) && decide (f (1 / 10 * ((k : Nat) : K)) ≤ 1)) &&
      !decide (i.refPower < dblEps)
  | none => true

/-- `GunnsElectConverterOutput::validate`, GunnsElectConverterOutput.cpp:301-333: `false` is an exception. -/
def Out.valid (o : Out K) : Bool :=
  !(decide (o.conductance < dblEps) || decide (o.efficiency < dblEps) || decide (o.efficiency > 1) ||
    decide (o.voltage < 0) || decide (o.setpoint < 0))

end Gunns.Conv
