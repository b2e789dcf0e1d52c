import Verif.Base.Const

/-!
# The first switch utility

`aspects/electrical/Switch/GunnsElectSwitchUtil` and the link `SwitchElect` around it.
Doubles are an ordered field; the health and status messages are left out.
-/

namespace Gunns.SwUtil

variable {K : Type*} [Field K] [LinearOrder K] [IsStrictOrderedRing K]

/-- `mConductanceLimit`, GunnsElectSwitchUtil.cpp:21. -/
def condLimit : K := 10 ^ 15

/-- A switch: malfunctions, commands, limits and state, GunnsElectSwitchUtil.hh:100-160. -/
structure Switch (K : Type*) where
  /-- `mMalfFailOpen` -/
  failOpen : Bool
  /-- `mMalfFailClosed` -/
  failClosed : Bool
  /-- `mMalfFailResistance` -/
  failRes : Bool
  /-- `mMalfFailResistPercent` -/
  percent : K
  /-- `mMalfPosTripSetpointFail` -/
  failPos : Bool
  /-- `mMalfPosTripSetpointFailValue` -/
  failPosValue : K
  /-- `mMalfNegTripSetpointFail` -/
  failNeg : Bool
  /-- `mMalfNegTripSetpointFailValue` -/
  failNegValue : K
  /-- `mMalfIgnoreCurrentTrip` -/
  ignore : Bool
  /-- `mCurrentActual` -/
  actual : K
  /-- `mCurrentSensed` -/
  sensed : K
  /-- `mVoltageIn` -/
  voltageIn : K
  /-- `mPowerDissipation` -/
  power : K
  /-- `mSwitchCommandedClosed` -/
  cmd : Bool
  /-- `mSwitchIsClosed` -/
  closed : Bool
  /-- `mPosTrip` -/
  pos : Bool
  /-- `mNegTrip` -/
  neg : Bool
  /-- `mExternalTrip` -/
  ext : Bool
  /-- `mWaitingToTrip` -/
  waiting : Bool
  /-- `mJustTripped` -/
  just : Bool
  /-- `mTripReset` -/
  reset : Bool
  /-- `mTripPriority` -/
  priority : ℕ
  /-- `mDefaultSwitchResistance` -/
  defRes : K
  /-- `mActiveSwitchResistance` -/
  res : K
  /-- `mOverCurrentProtection` -/
  prot : Bool
  /-- `mDefaultPosTripLimit` -/
  defPos : K
  /-- `mActivePosTripLimit` -/
  posLimit : K
  /-- `mDefaultNegTripLimit` -/
  defNeg : K
  /-- `mActiveNegTripLimit` -/
  negLimit : K
  /-- `mSwitchStateEnum` -/
  code : ℕ

/-- `isTripped`, GunnsElectSwitchUtil.hh:335-338. -/
def Switch.tripped (s : Switch K) : Bool := s.pos || s.neg || s.ext

/-- `getConductance`, GunnsElectSwitchUtil.hh:300-310. -/
def Switch.conductance (s : Switch K) : K :=
  if s.closed then (if 0 < s.res then 1 / s.res else condLimit) else 0

/-- `getOutputVolts`, GunnsElectSwitchUtil.hh. -/
def Switch.outputVolts (s : Switch K) : K := if s.closed then s.voltageIn else 0

/-- The percentage after the resistance malfunction has looked at it, GunnsElectSwitchUtil.cpp:412-414. -/
def scaled (p : K) : K := if 1 < p then p / 100 else p

/-- The malfunctions in `updateSwitchState`, GunnsElectSwitchUtil.cpp:384-419. -/
def malfs (s : Switch K) : Switch K :=
  let d := if s.defRes ≤ 0 then 1 / condLimit else s.defRes
  { s with
    posLimit := if s.failPos then s.failPosValue else s.defPos
    negLimit := if s.failNeg then s.failNegValue else s.defNeg
    prot := if s.ignore then false else s.prot
    defRes := d
    percent := if s.failRes then scaled s.percent else s.percent
    res := if s.failRes then d * scaled s.percent else d }

/-- The position in `updateSwitchState`, GunnsElectSwitchUtil.cpp:421-439. -/
def position (valid : Bool) (s : Switch K) : Switch K :=
  let c := if s.tripped = false ∧ s.waiting = false ∧ valid = true then s.cmd else s.closed
  if valid then
    { s with closed := if s.failClosed then true else if s.failOpen then false else c }
  else
    { s with
      closed := false
      cmd := false
      reset := true }

/-- The reset of the trips in `updateSwitchState`, GunnsElectSwitchUtil.cpp:441-455. -/
def resets (s : Switch K) : Switch K :=
  if s.reset || (s.tripped && !s.cmd) then
    { s with
      ext := false
      pos := false
      neg := false
      waiting := false
      reset := false }
  else s

/-- The number for the displays in `updateSwitchState`, GunnsElectSwitchUtil.cpp:457-479. -/
def stateCode (s : Switch K) : ℕ :=
  let c := if s.closed then 1 else 0
  let c := if s.failOpen then 2 else c
  let c := if s.failClosed then 3 else c
  let c := if s.failOpen && s.failClosed then 4 else c
  let c := if s.pos then 5 else c
  let c := if s.neg then 6 else c
  if s.ext then 7 else c

/-- `updateSwitchState`, GunnsElectSwitchUtil.cpp:380-480. -/
def updateState (valid : Bool) (s : Switch K) : Switch K :=
  let s := resets (position valid (malfs s))
  { s with code := stateCode s }

/-- The positive trip in `updateSwitchFlow`, GunnsElectSwitchUtil.cpp:524-540. -/
def tripPos (n : ℕ) (s : Switch K) : Switch K :=
  if s.posLimit < s.sensed then
    if s.priority ≤ n then
      { s with
        actual := 0
        closed := false
        waiting := false
        pos := true }
    else
      { s with
        waiting := true
        pos := false }
  else s

/-- The negative trip in `updateSwitchFlow`, GunnsElectSwitchUtil.cpp:542-557. -/
def tripNeg (n : ℕ) (s : Switch K) : Switch K :=
  if s.sensed < s.negLimit then
    if s.priority ≤ n then
      { s with
        actual := 0
        closed := false
        waiting := false
        neg := true }
    else
      { s with
        waiting := true
        neg := false }
  else s

/-- The external trip in `updateSwitchFlow`, GunnsElectSwitchUtil.cpp:560-568. -/
def tripExt (s : Switch K) : Switch K :=
  if s.ext && s.closed then
    { s with
      actual := 0
      closed := false
      waiting := false }
  else s

/-- The trips in `updateSwitchFlow`, GunnsElectSwitchUtil.cpp:522-569. -/
def trips (n : ℕ) (s : Switch K) : Switch K :=
  if s.failClosed then s
  else tripExt (if s.prot then tripNeg n (tripPos n s) else s)

/-- The currents at the start of `updateSwitchFlow`, GunnsElectSwitchUtil.cpp:507-516. -/
def senses (actual sensed v : K) (s : Switch K) : Switch K :=
  { s with
    waiting := false
    voltageIn := v
    actual := if s.closed then actual else 0
    sensed := if s.closed then sensed else 0 }

/-- `updateSwitchFlow`, GunnsElectSwitchUtil.cpp:501-584. -/
def updateFlow (actual sensed v : K) (n : ℕ) (minor : Bool) (s : Switch K) : Switch K :=
  let t := trips n (senses actual sensed v s)
  { t with
    just := if minor then s.just else t.tripped && !s.tripped
    power := if 0 < t.conductance then |t.actual * t.actual| / t.conductance else 0 }

/-- The answers of `confirmSolutionAcceptable`. -/
inductive Answer
  | confirm
  | delay
  | reject
  deriving DecidableEq

/-- `SwitchElect::confirmSolutionAcceptable`, SwitchElect.cpp:172-200, `i` being the flux and `v` the potential of port 0. -/
def confirm (i v : K) (n : ℕ) (s : Switch K) : Switch K × Answer :=
  if 0 < n then
    let t := updateFlow i i v n false s
    (t, if t.waiting then .delay else if t.just then .reject else .confirm)
  else (s, .delay)

/-- What may happen to a switch: its two updates, the commands and the malfunctions, GunnsElectSwitchUtil.cpp:586-690;
`mMalfIgnoreCurrentTrip` is set from outside. -/
inductive Event (K : Type*)
  | update (valid : Bool)
  | flow (actual sensed v : K) (n : ℕ) (minor : Bool)
  | command (c : Bool)
  | resetTrips
  | external (b : Bool)
  | failOpen (b : Bool)
  | failClosed (b : Bool)
  | failRes (b : Bool) (x : K)
  | failPos (b : Bool) (x : K)
  | failNeg (b : Bool) (x : K)
  | ignore (b : Bool)

/-- One event. -/
def handle (e : Event K) (s : Switch K) : Switch K :=
  match e with
  | .update b => updateState b s
  | .flow i j v n m => updateFlow i j v n m s
  | .command c => { s with cmd := c }
  | .resetTrips => { s with reset := true }
  | .external b => { s with ext := b }
  | .failOpen b => { s with failOpen := b }
  | .failClosed b => { s with failClosed := b }
  | .failRes b x => { s with
    failRes := b
    percent := x }
  | .failPos b x => { s with
    failPos := b
    failPosValue := x }
  | .failNeg b x => { s with
    failNeg := b
    failNegValue := x }
  | .ignore b => { s with ignore := b }

/-- Events, one after the other. -/
def handleAll (es : List (Event K)) (s : Switch K) : Switch K := es.foldl (fun s e => handle e s) s

/-- The converged steps 1, 2, …, `n` of a pass that all see the switch over its limit: the currents are `i 1`, `i 2`, …. -/
def steps (i v : ℕ → K) : ℕ → Switch K → Switch K × Answer
  | 0, s => (s, .delay)
  | n + 1, s => confirm (i (n + 1)) (v (n + 1)) (n + 1) (steps i v n s).1

end Gunns.SwUtil
