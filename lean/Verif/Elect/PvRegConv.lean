import Verif.Elect.Switch
import Verif.Elect.PvArray

/-!
# The converting regulator of the solar array

Model of `GunnsElectPvRegConv` (`aspects/electrical/SolarArray/GunnsElectPvRegConv.cpp` and `.hh`, here Conv) and of
`GunnsElectPvRegTrips` (`GunnsElectPvRegTrips.cpp` and `.hh`).

Simplifications: doubles are real numbers.  The cast of the sensed values to float and the optional sensors are functions
given to each call.  The array gives its curve and takes the load; its `mTerminal` is part of the state here.  `none` is a
division by zero within the array.  The state is always one of the four, so the correction of an invalid value is left
out, as are the port commands and the flag `mAdmittanceUpdate`.
-/

namespace Gunns.Pv

open Gunns

section Field

variable {K : Type} [Field K] [LinearOrder K]

/-- `GunnsElectPvRegTrips`. -/
structure RegTrips (K : Type) where
  inOv : Sw.Trip K
  inOc : Sw.Trip K
  outOv : Sw.Trip K
  outOc : Sw.Trip K
  outUv : Sw.Trip K

/-- `isTripped`, GunnsElectPvRegTrips.hh:70-77. -/
def RegTrips.isTripped (t : RegTrips K) : Bool :=
  t.inOv.tripped || t.inOc.tripped || t.outOv.tripped || t.outOc.tripped || t.outUv.tripped

/-- `resetTrips`, GunnsElectPvRegTrips.cpp:36-43. -/
def RegTrips.reset (t : RegTrips K) : RegTrips K :=
  ⟨t.inOv.reset, t.inOc.reset, t.outOv.reset, t.outOc.reset, t.outUv.reset⟩

/-- The five calls of `checkForTrip`, Conv.cpp:484-488 and GunnsElectPvRegShunt.cpp:638-642: the trips, the result, and
whether the state becomes off. -/
def RegTrips.check (t : RegTrips K) (r : SolRes) (vin iin vout iout : K) (n : ℕ) : RegTrips K × SolRes × Bool :=
  let c1 := t.inOv.check true r vin n
  let c2 := t.inOc.check true c1.2.1 iin n
  let c3 := t.outOv.check true c2.2.1 vout n
  let c4 := t.outOc.check true c3.2.1 iout n
  let c5 := t.outUv.check false c4.2.1 vout n
  (⟨c1.1, c2.1, c3.1, c4.1, c5.1⟩, c5.2.1, c1.2.2 || c2.2.2 || c3.2.2 || c4.2.2 || c5.2.2)

end Field

/-- `PvRegStates`. -/
inductive RegState where
  | off | reg | sag | short
  deriving DecidableEq

/-- `mMaxAdmittance`, Conv.cpp:118. -/
def maxAdm : ℝ := 100000000

/-- `mMinAdmittance`, Conv.cpp:121. -/
noncomputable def minAdm : ℝ := 1 / 100000000

/-- The values of the regulator. -/
structure RegConv where
  limit : ℝ
  eff : ℝ
  setpoint : ℝ
  delta : ℝ
  bias : Option ℝ
  powered : Bool
  enabled : Bool
  resetCmd : Bool
  trips : RegTrips ℝ
  state : RegState
  latch : Bool
  vreg : ℝ
  stateAdm : RegState → ℝ
  stateSrc : RegState → ℝ
  adm : ℝ
  src : ℝ
  flux : ℝ
  outPower : ℝ
  inPower : ℝ
  maxCurrent : ℝ
  power : ℝ
  waste : ℝ
  term : Load ℝ

/-- `validate`, Conv.cpp:244-277, without the tests of pointers: `false` is an exception. -/
noncomputable def RegConv.valid (r : RegConv) : Bool :=
  !(decide (r.limit < 1) || !(decide (dblEps ≤ r.eff) && decide (r.eff ≤ 1)) || decide (r.setpoint < dblEps))

/-- `updateRegulatedVoltage`, Conv.hh:345-352. -/
noncomputable def RegConv.regulated (r : RegConv) : ℝ :=
  max (match r.bias with
    | none => r.setpoint + r.delta
    | some b => r.setpoint + r.delta + b) dblEps

/-- The admittances of the states, Conv.cpp:328-338. -/
noncomputable def RegConv.admOf (a : ArrayCurve ℝ) (r : RegConv) : RegState → ℝ
  | .off => minAdm
  | .reg => maxAdm
  | .sag => min maxAdm (max minAdm (a.cornerI * r.eff / r.limit / max (a.voc * r.limit - a.cornerV * r.limit) dblEps))
  | .short => min maxAdm (max minAdm ((a.isc / r.limit - a.cornerI * r.eff / r.limit) / max (a.cornerV * r.limit) dblEps))

/-- The sources of the states, Conv.cpp:340-343. -/
noncomputable def RegConv.srcOf (a : ArrayCurve ℝ) (r : RegConv) : RegState → ℝ
  | .off => 0
  | .reg => r.vreg * r.admOf a .reg
  | .sag => a.voc * r.limit * r.admOf a .sag
  | .short => a.isc / r.limit

/-- `updateMaxOutputs`, Conv.cpp:371-377. -/
noncomputable def RegConv.maxOut (a : ArrayCurve ℝ) (r : RegConv) : Option ℝ :=
  match a.predictLoad (r.vreg / r.limit) with
  | none => none
  | some (p, _) => some (p * r.eff / (r.vreg / r.limit * r.limit))

/-- Whether the regulator is or becomes off at once, Conv.cpp:393-394. -/
noncomputable def RegConv.blocked (a : ArrayCurve ℝ) (r : RegConv) (v : ℝ) : Bool :=
  !(r.powered && r.enabled) || r.trips.isTripped || (decide (r.state = .reg) && decide (v > r.vreg)) ||
    decide (a.mpp.power < dblEps)

/-- The change of state by the voltage of the array, Conv.cpp:413-431: the state and the latch. -/
noncomputable def RegConv.mode (a : ArrayCurve ℝ) (r : RegConv) (v vin : ℝ) : RegState × Bool :=
  if vin * r.limit > r.vreg ∨ (v > r.vreg ∧ r.state = .sag) then
    if r.state ≠ .reg ∧ r.latch = false then (.reg, true) else (r.state, r.latch)
  else if vin > a.cornerV ∨ (v > r.vreg ∧ r.state = .short) then
    if r.state = .short then
      if r.latch = false then (.sag, true) else (r.state, r.latch)
    else (.sag, r.latch)
  else (.short, r.latch)

/-- `updateRegulatorState`, Conv.cpp:385-435: whether the state changed, and the regulator. -/
noncomputable def RegConv.update (a : ArrayCurve ℝ) (r : RegConv) (v : ℝ) : Option (Bool × RegConv) :=
  if r.blocked a v = true then
    match a.loadAtPower r.term 0 false with
    | none => none
    | some l => some (decide (r.state ≠ .off), { r with
        state := .off
        flux := 0
        outPower := 0
        inPower := 0
        term := l })
  else
    let flux := -v * r.adm + r.src
    let pout := v * flux
    let pin := pout / r.eff
    match a.loadAtPower r.term pin (decide (r.state = .short)) with
    | none => none
    | some l =>
      let m := r.mode a v l.voltage
      some (decide (m.1 ≠ r.state), { r with
        flux := flux
        outPower := pout
        inPower := pin
        term := l
        state := m.1
        latch := m.2 })

/-- `minorStep`, Conv.cpp:359-366, with Conv.hh:357-369. -/
def RegConv.minor (r : RegConv) : RegConv :=
  { r with
    adm := r.stateAdm r.state
    src := r.stateSrc r.state }

/-- `step` to line 343, Conv.cpp:307-343: the inputs of the pass. -/
noncomputable def RegConv.prepare (a : ArrayCurve ℝ) (r : RegConv) : RegConv :=
  let r : RegConv := if r.resetCmd || !r.powered then { r with
      trips := r.trips.reset
      resetCmd := false } else r
  let r : RegConv := { r with
    vreg := r.regulated
    limit := max r.limit 1 }
  { r with
    stateAdm := r.admOf a
    stateSrc := r.srcOf a }

/-- `step`, Conv.cpp:307-351; `v` is the potential that the last pass left. -/
noncomputable def RegConv.step (a : ArrayCurve ℝ) (r : RegConv) (v : ℝ) : Option RegConv :=
  let r := r.prepare a
  match r.maxOut a with
  | none => none
  | some i =>
    match RegConv.update a { r with
        maxCurrent := i
        latch := false } v with
    | none => none
    | some u => some u.2.minor

/-- What the trips are given in place of voltages and currents. -/
structure Sense (K : Type) where
  vin : K → K
  iin : K → K
  vout : K → K
  iout : K → K

/-- `confirmSolutionAcceptable`, Conv.cpp:446-492. -/
noncomputable def RegConv.confirm (a : ArrayCurve ℝ) (r : RegConv) (s : Sense ℝ) (v : ℝ) (n : ℕ) : Option (SolRes × RegConv) :=
  match r.update a v with
  | none => none
  | some u =>
    let r := u.2
    let res : SolRes := if u.1 = true ∧ n > 0 then .reject else .confirm
    if n > 0 ∧ r.powered = true ∧ r.enabled = true then
      let c := r.trips.check res (s.vin r.term.voltage) (s.iin r.term.current) (s.vout v) (s.iout r.flux) n
      some (c.2.1, { r with
        trips := c.1
        state := if c.2.2 = true then .off else r.state })
    else some (res, r)

/-- `computeFlows`, Conv.cpp:499-507: `mPower` and `mWasteHeat`. -/
def RegConv.flows (r : RegConv) : RegConv :=
  { r with
    power := r.outPower - r.inPower
    waste := -(r.outPower - r.inPower) }

end Gunns.Pv
