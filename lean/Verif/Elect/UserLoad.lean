import Verif.Base.Const
import Verif.Math.Interp

/-!
# Electrical user loads and their bus

`aspects/electrical/UserLoad`: UserLoadBase, ResistiveLoad, ConstantPowerLoad and the duty cycle of GunnsElectUserLoad;
`aspects/electrical/PowerBus/PowerBusElect` and the fuse check of `aspects/electrical/Switch/GunnsElectUserLoadSwitch`.
Doubles are an ordered field; a division of the power by no voltage is an outcome of its own.
-/

namespace Gunns.UserLoad

open Gunns.Interp

variable {K : Type*} [Field K] [LinearOrder K] [IsStrictOrderedRing K]

/-- `mUserLoadType`. -/
inductive Kind
  | resistive
  | power
  deriving DecidableEq

/-- `UserLoadMode`, UserLoadBase.hh:70-74. -/
inductive Mode
  | off
  | on
  | standby
  deriving DecidableEq

/-- `MAXIMUM_RESISTANCE`, UserLoadBase.cpp:40. -/
def maxRes : K := 10 ^ 8

/-- `MINIMUM_RESISTANCE`, UserLoadBase.cpp:41. -/
def minRes : K := 1 / 10

/-- `DEFAULT_RESISTANCE`, UserLoadBase.cpp:42. -/
def defaultRes : K := 10 ^ 6

/-- What `step` ends with: a return, a TsNumericalException, or a division of or by zero whose result is not a number or infinite. -/
inductive Outcome
  | ok
  | threw
  | divZero
  deriving DecidableEq

/-- A load: configuration (UserLoadBase.hh, ResistiveLoad.hh, ConstantPowerLoad.hh), malfunctions and state. -/
structure Load (K : Type*) where
  kind : Kind
  /-- `mUnderVoltageLimit` -/
  least : K
  /-- `mFuseCurrentLimit` -/
  fuseLimit : K
  /-- `mResistanceNormal` or `mPowerNormal` -/
  normal : K
  /-- `mResistanceStandby` or `mPowerStandby` -/
  standby : K
  /-- `mMalfOverrideCurrentFlag`, `mMalfOverrideCurrentValue` -/
  overI : Option K
  /-- `mMalfOverridePowerFlag`, `mMalfOverridePower` -/
  overP : Option K
  /-- `mMalfBlowFuse` -/
  blow : Bool
  /-- `mMagicPowerFlag`, `mMagicPowerValue` -/
  magic : Option K
  /-- `mLoadOperMode` -/
  mode : Mode
  /-- `mFuseIsBlown` -/
  blown : Bool
  /-- `mVoltage` -/
  voltage : K
  /-- `mPowerValid` -/
  valid : Bool
  /-- `mCurrent` -/
  current : K
  /-- `mActualPower` -/
  power : K
  /-- `mEquivalentResistance` -/
  res : K

/-- The voltage a load sees, UserLoadBase.cpp:336-342. -/
def seen (v : K) (l : Load K) : K :=
  match l.magic with
  | some m => m
  | none => if l.blown then 0 else v

/-- `UserLoadBase::step`, UserLoadBase.cpp:324-346. -/
def baseStep (v : K) (l : Load K) : Load K :=
  let l1 : Load K := { l with
    current := 0
    power := 0
    res := maxRes
    blown := l.blow || l.blown }
  { l1 with
    voltage := seen v l1
    valid := decide (l.least < seen v l1) }

/-- `ResistiveLoad::computeActualPower`, ResistiveLoad.cpp:335-355. -/
def ohm (l : Load K) : Load K × Outcome :=
  if 0 ≤ l.res then
    let r := if l.res = 0 then defaultRes else l.res
    ({ l with
      res := r
      current := l.voltage / r
      power := l.voltage * l.voltage / r }, .ok)
  else (l, .threw)

/-- The resistance of a mode, ResistiveLoad.cpp:298-323. -/
def modeRes (r : K) : K := if 0 < r then limitRange minRes r maxRes else maxRes

/-- `calculateResistiveLoad`, ResistiveLoad.cpp:264-327. -/
def resistive (l : Load K) : Load K × Outcome :=
  if l.valid then
    match l.overI with
    | some i => if 0 ≤ i then ohm { l with res := if i = 0 then maxRes else l.voltage / i } else (l, .threw)
    | none =>
      match l.overP with
      | some p => if 0 ≤ p then ohm { l with res := if p = 0 then maxRes else l.voltage * l.voltage / p } else (l, .threw)
      | none =>
        match l.mode with
        | .off => (l, .ok)
        | .on => ohm { l with res := modeRes l.normal }
        | .standby => ohm { l with res := modeRes l.standby }
  else (l, .ok)

/-- `ConstantPowerLoad::computeActualPower`, ConstantPowerLoad.cpp:289-305. -/
def draw (p : K) (l : Load K) : Load K × Outcome :=
  if l.voltage = 0 then ({ l with power := p }, .divZero)
  else
    let l1 : Load K := { l with
      power := p
      current := p / l.voltage }
    let u := max l.voltage (99 / 100 * l.least)
    if 0 < p then ({ l1 with res := u * u / p }, .ok)
    else if p < 0 then ({ l1 with res := maxRes }, .threw)
    else (l1, .ok)

/-- `calculateConstantPowerLoad`, ConstantPowerLoad.cpp:246-282. -/
def constant (l : Load K) : Load K × Outcome :=
  if l.valid then
    match l.overI with
    | some i => if 0 ≤ i then draw (l.voltage * i) l else (l, .threw)
    | none =>
      match l.overP with
      | some p => if 0 ≤ p then draw p l else (l, .threw)
      | none =>
        match l.mode with
        | .off => (l, .ok)
        | .on => draw l.normal l
        | .standby => draw l.standby l
  else (l, .ok)

/-- `ResistiveLoad::step` and `ConstantPowerLoad::step`, ResistiveLoad.cpp:236-255 and ConstantPowerLoad.cpp:224-239. -/
def step (v : K) (l : Load K) : Load K × Outcome :=
  match l.kind with
  | .resistive => resistive (baseStep v l)
  | .power => constant (baseStep v l)

/-- `updateFuse`, UserLoadBase.cpp:383-393. -/
def updateFuse (v : K) (l : Load K) : Load K × Bool :=
  if 0 < l.fuseLimit ∧ l.blown = false then
    if l.fuseLimit < v / max l.res dblEps then ({ l with blown := true }, true) else (l, false)
  else (l, false)

/-- The loop over the fuses, GunnsElectUserLoadSwitch.cpp:319-324: `or` does not look at the fuses after one that trips. -/
def updateFuses (v : K) : List (Load K) → List (Load K) × Bool
  | [] => ([], false)
  | l :: ls =>
    let r := updateFuse v l
    if r.2 then (r.1 :: ls, true)
    else
      let s := updateFuses v ls
      (r.1 :: s.1, s.2)

/-- What may happen to a load: a step, a fuse check and the setters, UserLoadBase.hh:441-469 and UserLoadBase.cpp:355-372. -/
inductive Event (K : Type*)
  | step (v : K)
  | check (v : K)
  | mode (m : Mode)
  | overI (x : Option K)
  | overP (x : Option K)
  | blow (b : Bool)
  | magic (x : Option K)
  | resetFuse

/-- One event. -/
def handle (e : Event K) (l : Load K) : Load K :=
  match e with
  | .step v => (step v l).1
  | .check v => (updateFuse v l).1
  | .mode m => { l with mode := m }
  | .overI x => { l with overI := x }
  | .overP x => { l with overP := x }
  | .blow b => { l with blow := b }
  | .magic x => { l with magic := x }
  | .resetFuse => { l with blown := false }

/-- Events, one after the other. -/
def handleAll (es : List (Event K)) (l : Load K) : Load K := es.foldl (fun l e => handle e l) l

/-! ## Duty cycle -/

/-- `mDutyCycleFraction`, `mDutyCyclePeriod` of a GunnsElectUserLoad. -/
structure Duty (K : Type*) where
  fraction : K
  period : K

/-- The timer in `stepDutyCycle`, GunnsElectUserLoad.cpp:127-130. -/
def Duty.tick (d : Duty K) (dt timer : K) : K := if d.period < timer + dt then 0 else timer + dt

/-- `stepDutyCycle`, GunnsElectUserLoad.cpp:124-137. -/
def Duty.step (d : Duty K) (dt : K) (s : K × Mode) : K × Mode :=
  if 0 < d.period then
    (d.tick dt s.1, if d.fraction < d.tick dt s.1 / d.period then .off else .on)
  else s

/-! ## The bus -/

/-- The state of a PowerBusElect, PowerBusElect.cpp:144-165. -/
structure Bus (K : Type*) where
  loads : List (Load K)
  /-- `mMaxConductance` -/
  maxCond : K
  /-- `mTotalCPowerLoadsPower` -/
  total : K
  /-- `mResLoadsConductance` -/
  resist : K
  /-- `mCPowerLoadsConductance` -/
  constant : K
  /-- `mActiveResLoadsConductance` -/
  activeR : K
  /-- `mActiveCPowerLoadsConductance` -/
  activeC : K
  /-- `mAdmittanceMatrix[0]` -/
  admittance : K
  /-- `mAdmittanceUpdate` -/
  update : Bool

/-- `mMinConductance`, PowerBusElect.cpp:282-284. -/
def minCond : K := 1 / 10 ^ 8

/-- A load's part in `mTotalCPowerLoadsPower`, PowerBusElect.cpp:341-342. -/
def powerPart (l : Load K) : K := if l.kind = .power then l.power else 0

/-- A load's part in `mResLoadsConductance`, PowerBusElect.cpp:343-345; `mMaxResistance` is one over `mMinConductance`, 197. -/
def resistPart (l : Load K) : K :=
  if l.kind = .power then 0 else if dblEps ≤ l.res ∧ l.res ≤ 1 / minCond then 1 / l.res else 0

/-- The limits in `checkResLoadConductance` and `checkCPLoadConductance`, PowerBusElect.cpp:430-435 and 451-456. -/
def cap (maxCond g : K) : K := if maxCond < g then maxCond else if g < minCond then 0 else g

/-- The tolerance in them, PowerBusElect.cpp:438-441 and 459-462. -/
def follow (active g : K) : K := if dblEps < |active - g| then g else active

/-- `step`, PowerBusElect.cpp:319-366, where no load throws. -/
def Bus.step (v : K) (isSealed : Bool) (b : Bus K) : Bus K :=
  let ls := if isSealed then b.loads else b.loads.map (fun l => (UserLoad.step v l).1)
  let total := if isSealed then 0 else (ls.map powerPart).sum
  let resist := cap b.maxCond (if isSealed then 0 else (ls.map resistPart).sum)
  let constant := cap b.maxCond (if dblEps < v then total / (v * v) else b.constant)
  { b with
    loads := ls
    total := total
    resist := resist
    constant := constant
    activeR := follow b.activeR resist
    activeC := follow b.activeC constant
    admittance := follow b.activeR resist + follow b.activeC constant + dblEps / (1 / 10 ^ 7)
    update := b.update || decide (dblEps < |b.activeR - resist|) || decide (dblEps < |b.activeC - constant|) }

/-- `computeFlows`, PowerBusElect.cpp:384-390: the flux. -/
def Bus.flux (v : K) (b : Bus K) : K := b.admittance * v

end Gunns.UserLoad
