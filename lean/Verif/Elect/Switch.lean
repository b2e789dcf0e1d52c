import Verif.Base.Const
import Verif.Solver.Model

/-!
# Model of the trip logic and of the electrical switch
(aspects/electrical/TripLogic/GunnsTripLogic.cpp, aspects/electrical/Switch/GunnsElectSwitchUtil2.cpp)

Simplifications, common to the whole file:

* messages, names and the init flag are left out;
* the casts of current and voltage to `float` (GunnsElectSwitchUtil2.cpp:322-379) are left out: the values
  given here are those after the cast;
* `convergedStep` is a natural number.  The solver never gives a negative one (Gunns.cpp:824, 907, 921).
-/

namespace Gunns.Sw

open Gunns

/-- `GunnsTripLogic`, GunnsTripLogic.hh. -/
structure Trip (K : Type _) where
  /-- `mMalfInhibitTrip` -/
  inhibit : Bool
  /-- `mMalfForceTrip` -/
  force : Bool
  /-- `mLimit` -/
  limit : K
  /-- `mPriority` -/
  priority : Nat
  /-- `mIsTripped` -/
  tripped : Bool
deriving DecidableEq

variable {K : Type _} [Field K] [LinearOrder K]

/-- `GunnsTripLogic::GunnsTripLogic` and `initialize`, GunnsTripLogic.cpp:17-51, with `isTripped` false as in all calls
by the switch. -/
def Trip.make (limit : K) (priority : Nat) : Trip K := ⟨false, false, limit, priority, false⟩

/-- `GunnsTripLogic::resetTrip`, GunnsTripLogic.hh. -/
def Trip.reset (t : Trip K) : Trip K := { t with tripped := false }

/-- `isTripCondition` of `GunnsTripGreaterThan` and `GunnsTripLessThan`, GunnsTripLogic.hh:186-201. -/
def Trip.condition (greater : Bool) (t : Trip K) (param : K) : Bool :=
  if greater then decide (param > t.limit) else decide (param < t.limit)

/-- `GunnsTripLogic::checkForTrip`, GunnsTripLogic.cpp:70-100: new state, new `result`, return value. -/
def Trip.check (greater : Bool) (t : Trip K) (result : SolRes) (param : K) (convergedStep : Nat) :
    Trip K × SolRes × Bool :=
  let t := if t.inhibit then t.reset else t
  if !(t.tripped || t.inhibit || decide (t.limit = 0) || decide (t.priority < 1)) then
    if t.force || t.condition greater param then
      if t.force || decide (convergedStep = t.priority) then
        ({ t with tripped := true }, .reject, true)
      else if result ≠ .reject then (t, .delay, false)
      else (t, result, false)
    else (t, result, false)
  else (t, result, false)

/-- `GunnsElectSwitchUtil2`, GunnsElectSwitchUtil2.hh. -/
structure Switch (K : Type _) where
  failClosed : Bool
  failOpen : Bool
  resistance : K
  /-- `mPosition`, true = closed -/
  position : Bool
  /-- `mPositionCommand` -/
  command : Bool
  /-- `mResetTripsCommand` -/
  resetCommand : Bool
  /-- `mInputUnderVoltageTrip` -/
  uv : Trip K
  /-- `mInputUnderVoltageReset` -/
  uvReset : Trip K
  /-- `mInputOverVoltageTrip` -/
  ov : Trip K
  /-- `mInputOverVoltageReset` -/
  ovReset : Trip K
  /-- `mPosOverCurrentTrip` -/
  posAmps : Trip K
  /-- `mNegOverCurrentTrip` -/
  negAmps : Trip K
  /-- `mWaitingToTrip` -/
  waiting : Bool
  /-- `mJustTripped` -/
  just : Bool
deriving DecidableEq

/-- Configuration and input data, GunnsElectSwitchUtil2.hh. -/
structure Data (K : Type _) where
  resistance : K
  tripPriority : Nat
  position : Bool
  command : Bool
  resetCommand : Bool
  uvLimit : K
  uvReset : K
  ovLimit : K
  ovReset : K
  posLimit : K
  negLimit : K

/-- `GunnsElectSwitchUtil2::initialize` and `validate`, GunnsElectSwitchUtil2.cpp:190-243; `none` is the
`TsInitializationException`. -/
def make (d : Data K) : Option (Switch K) :=
  if d.resistance < fltEps then none
  else if d.uvReset < d.uvLimit then none
  else if d.ovReset > d.ovLimit then none
  else some
    { failClosed := false
      failOpen := false
      resistance := d.resistance
      position := d.position
      command := d.command
      resetCommand := d.resetCommand
      uv := Trip.make d.uvLimit d.tripPriority
      uvReset := Trip.make d.uvReset d.tripPriority
      ov := Trip.make d.ovLimit d.tripPriority
      ovReset := Trip.make d.ovReset d.tripPriority
      posAmps := Trip.make d.posLimit d.tripPriority
      negAmps := Trip.make d.negLimit d.tripPriority
      waiting := false
      just := false }

/-- `GunnsElectSwitchUtil2::isTripped`, GunnsElectSwitchUtil2.hh. -/
def Switch.tripped (s : Switch K) : Bool :=
  s.uv.tripped || s.ov.tripped || s.posAmps.tripped || s.negAmps.tripped

/-- `GunnsElectSwitchUtil2::applyConstraints`, GunnsElectSwitchUtil2.cpp:250-263. -/
def Switch.constrain (s : Switch K) : Switch K :=
  { s with
    resistance := if s.resistance < fltEps then fltEps else s.resistance
    uvReset := if s.uvReset.limit < s.uv.limit then { s.uvReset with limit := s.uv.limit } else s.uvReset
    ovReset := if s.ovReset.limit > s.ov.limit then { s.ovReset with limit := s.ov.limit } else s.ovReset }

/-- `GunnsElectSwitchUtil2::resetTrips`, GunnsElectSwitchUtil2.cpp:398-408. -/
def Switch.resetTrips (s : Switch K) : Switch K :=
  { s with
    waiting := false
    just := false
    uv := s.uv.reset
    uvReset := s.uvReset.reset
    ov := s.ov.reset
    ovReset := s.ovReset.reset
    posAmps := s.posAmps.reset
    negAmps := s.negAmps.reset }

/-- The reset part of `updateState`, GunnsElectSwitchUtil2.cpp:275-283. -/
def Switch.clear (s : Switch K) : Switch K :=
  let s := if s.tripped && !s.command then s.resetTrips else s
  if s.resetCommand then { s.resetTrips with resetCommand := false } else s

/-- The position part of `updateState`, GunnsElectSwitchUtil2.cpp:286-292. -/
def Switch.move (s : Switch K) : Switch K :=
  if s.failClosed then { s with position := true }
  else if s.failOpen then { s with position := false }
  else if !(s.tripped || s.waiting) then { s with position := s.command }
  else s

/-- `GunnsElectSwitchUtil2::updateState`, GunnsElectSwitchUtil2.cpp:270-293. -/
def Switch.updateState (s : Switch K) : Switch K := s.constrain.clear.move

/-- Under-voltage reset check, GunnsElectSwitchUtil2.cpp:321-328. -/
def Switch.checkUvReset (s : Switch K) (result : SolRes) (voltage : K) (n : Nat) : Switch K × SolRes :=
  if s.uv.tripped then
    let r := s.uvReset.check true result voltage n
    if r.2.2 then ({ s with uvReset := r.1.reset, uv := s.uv.reset }, r.2.1)
    else ({ s with uvReset := r.1 }, r.2.1)
  else (s, result)

/-- Over-voltage reset check, GunnsElectSwitchUtil2.cpp:333-340. -/
def Switch.checkOvReset (s : Switch K) (result : SolRes) (voltage : K) (n : Nat) : Switch K × SolRes :=
  if s.ov.tripped then
    let r := s.ovReset.check false result voltage n
    if r.2.2 then ({ s with ovReset := r.1.reset, ov := s.ov.reset }, r.2.1)
    else ({ s with ovReset := r.1 }, r.2.1)
  else (s, result)

/-- The four trip checks, GunnsElectSwitchUtil2.cpp:358-383. -/
def Switch.checkTrips (s : Switch K) (result : SolRes) (current voltage : K) (n : Nat) : Switch K × SolRes :=
  let r1 := s.uv.check false result voltage n
  let r2 := s.ov.check true r1.2.1 voltage n
  let r3 := s.posAmps.check true r2.2.1 current n
  let r4 := s.negAmps.check false r3.2.1 current n
  ({ s with
     uv := r1.1
     ov := r2.1
     posAmps := r3.1
     negAmps := r4.1 }, r4.2.1)

/-- `GunnsElectSwitchUtil2::updateTrips`, GunnsElectSwitchUtil2.cpp:303-393. -/
def Switch.updateTrips (s : Switch K) (current voltage : K) (n : Nat) : Switch K :=
  let s := { s with
    waiting := false
    just := false }
  if n > 0 then
    if (s.uv.tripped || s.ov.tripped) && !(s.failOpen || s.posAmps.tripped || s.negAmps.tripped) then
      let r1 := s.checkUvReset .confirm voltage n
      let r2 := r1.1.checkOvReset r1.2 voltage n
      if r2.2 = .delay then { r2.1 with waiting := true }
      else if r2.2 = .reject then
        { r2.1 with
          just := true
          position := if r2.1.command then true else r2.1.position }
      else r2.1
    else if s.command && !s.tripped && !s.failClosed then
      let r := s.checkTrips .confirm current voltage n
      if r.2 = .delay then { r.1 with waiting := true }
      else if r.2 = .reject then
        { r.1 with
          just := true
          position := false }
      else r.1
    else s
  else s

/-- The trip logic objects of the switch, reached by its getters, GunnsElectSwitchUtil2.hh. -/
inductive Which where
  | uv | uvReset | ov | ovReset | posAmps | negAmps
deriving DecidableEq

/-- The trip logic of that kind. -/
def Switch.get (s : Switch K) : Which → Trip K
  | .uv => s.uv
  | .uvReset => s.uvReset
  | .ov => s.ov
  | .ovReset => s.ovReset
  | .posAmps => s.posAmps
  | .negAmps => s.negAmps

/-- Change of the trip logic of that kind through its getter. -/
def Switch.modify (s : Switch K) (w : Which) (f : Trip K → Trip K) : Switch K :=
  match w with
  | .uv => { s with uv := f s.uv }
  | .uvReset => { s with uvReset := f s.uvReset }
  | .ov => { s with ov := f s.ov }
  | .ovReset => { s with ovReset := f s.ovReset }
  | .posAmps => { s with posAmps := f s.posAmps }
  | .negAmps => { s with negAmps := f s.negAmps }

/-- What users, the simulation and the solver do with a switch. -/
inductive Op (K : Type _) where
  /-- `setPositionCommand` -/
  | command (closed : Bool)
  /-- `setMalfFailClosed` -/
  | failClosed (on : Bool)
  /-- `setMalfFailOpen` -/
  | failOpen (on : Bool)
  /-- `mResetTripsCommand` -/
  | resetCommand
  /-- `mMalfInhibitTrip` of a trip -/
  | inhibit (w : Which) (on : Bool)
  /-- `mMalfForceTrip` of a trip -/
  | force (w : Which) (on : Bool)
  /-- `setLimit` of a trip -/
  | limit (w : Which) (x : K)
  /-- `resetTrips` -/
  | resetTrips
  /-- `updateState` -/
  | state
  /-- `updateTrips` -/
  | trips (current voltage : K) (convergedStep : Nat)

/-- Effect of one operation. -/
def Switch.apply (s : Switch K) : Op K → Switch K
  | .command b => { s with command := b }
  | .failClosed b => { s with failClosed := b }
  | .failOpen b => { s with failOpen := b }
  | .resetCommand => { s with resetCommand := true }
  | .inhibit w b => s.modify w fun t => { t with inhibit := b }
  | .force w b => s.modify w fun t => { t with force := b }
  | .limit w x => s.modify w fun t => { t with limit := x }
  | .resetTrips => s.resetTrips
  | .state => s.updateState
  | .trips i v n => s.updateTrips i v n

/-- Effect of a sequence of operations. -/
def Switch.run (s : Switch K) (ops : List (Op K)) : Switch K := ops.foldl Switch.apply s

end Gunns.Sw
