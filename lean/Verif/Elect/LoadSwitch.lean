import Verif.Elect.SwitchUtil
import Verif.Elect.UserLoad

/-!
# The switch with user loads, and its short circuit

`aspects/electrical/Switch/GunnsElectUserLoadSwitch` on `core/GunnsBasicConductor`, and `aspects/electrical/resistive/GunnsShortUtil`.
Doubles are an ordered field.  The potentials of the ports are inputs.  A load that throws is not followed: `updateState` is that of
loads that return.
-/

namespace Gunns.LoadSw

open Gunns.Interp

variable {K : Type*} [Field K] [LinearOrder K] [IsStrictOrderedRing K]

/-- `m100EpsilonLimit`. -/
def eps100 : K := 100 * dblEps

/-! ## The short circuit -/

/-- A GunnsShortUtil, GunnsShortUtil.hh:105-125: each malfunction is its value when its flag is set. -/
structure Short (K : Type*) where
  /-- `mMalfConstantPowerFlag`, `mMalfConstantPowerValue` -/
  constP : Option K
  /-- `mMalfConstantCurrentFlag`, `mMalfConstantCurrentValue` -/
  constI : Option K
  /-- `mMalfInitialPowerFlag`, `mMalfInitialPowerValue` -/
  initP : Option K
  /-- `mMalfInitialCurrentFlag`, `mMalfInitialCurrentValue` -/
  initI : Option K
  /-- `mMalfResistanceFlag`, `mMalfResistanceValue` -/
  resist : Option K
  /-- `mShortConductance` -/
  cond : K
  /-- `mPreviousCurrent` -/
  prevI : K
  /-- `mPreviousPower` -/
  prevP : K

/-- The conductance of a power, GunnsShortUtil.cpp:155 and 165. -/
def ofPower (p v : K) : K := |p| / max (v * v) dblEps

/-- The conductance of a current, GunnsShortUtil.cpp:159 and 172. -/
def ofCurrent (i v : K) : K := |i| / max |v| dblEps

/-- The choice in `computeShort`, GunnsShortUtil.cpp:153-182. -/
def Short.next (s : Short K) (v : K) : K :=
  match s.constP with
  | some p => ofPower p v
  | none =>
    match s.constI with
    | some i => ofCurrent i v
    | none =>
      match s.initP with
      | some p => if |p| ≠ s.prevP then ofPower p v else s.cond
      | none =>
        match s.initI with
        | some i => if |i| ≠ s.prevI then ofCurrent i v else s.cond
        | none =>
          match s.resist with
          | some r => 1 / max r dblEps
          | none => 0

/-- `computeShort`, GunnsShortUtil.cpp:151-197. -/
def Short.compute (s : Short K) (v : K) : Short K :=
  { s with
    cond := s.next v
    prevP := s.initP.getD 0
    prevI := s.initI.getD 0 }

/-! ## The link -/

/-- The link, GunnsElectUserLoadSwitch.hh:155-170 and GunnsBasicConductor.hh. -/
structure Link (K : Type*) where
  /-- `mSwitch` -/
  sw : SwUtil.Switch K
  /-- `mShort` -/
  short : Short K
  /-- `mUserLoads` -/
  loads : List (UserLoad.Load K)
  /-- `mLoadsPowerRefV` -/
  refV : K
  /-- `mLoadsOverrideActive`, `mLoadsOverrideVoltage` -/
  over : Option K
  /-- `mLoadsVoltage` -/
  loadsV : K
  /-- `mLoadsPower` -/
  loadsP : K
  /-- `mMalfBlockageFlag`, `mMalfBlockageValue` -/
  block : Option K
  /-- `mEffectiveConductivity` -/
  cond : K
  /-- `mAdmittanceMatrix` -/
  a0 : K
  a1 : K
  a2 : K
  a3 : K
  /-- `mSourceVector[1]` -/
  src1 : K
  /-- `mAdmittanceUpdate` -/
  update : Bool
  /-- `mFlux` -/
  flux : K
  /-- `mPower` -/
  power : K

/-- `mLoadsOverrideG`, GunnsElectUserLoadSwitch.cpp:26. -/
def overG : K := 10 ^ 8

/-- `mLoadsVoltage` in `updateState`, GunnsElectUserLoadSwitch.cpp:223-229. -/
def voltage (v0 : K) (sw : SwUtil.Switch K) (l : Link K) : K :=
  match l.over with
  | some u => u
  | none =>
    if l.loads ≠ [] ∧ sw.closed = true ∧ 0 ≤ l.flux then max 0 (v0 - l.flux / sw.conductance) else 0

/-- The conductance of loads that have stepped, GunnsElectUserLoadSwitch.cpp:232-237. -/
def loadsG (ls : List (UserLoad.Load K)) : K := eps100 + (ls.map fun x => 1 / max dblEps x.res).sum

/-- `mEffectiveConductivity` in `updateState`, GunnsElectUserLoadSwitch.cpp:247-261. -/
def effective (grounded : Bool) (sw : SwUtil.Switch K) (any : Bool) (g : K) : K :=
  if sw.closed then
    1 / (if any then 1 / sw.conductance + 1 / g else if grounded then SwUtil.condLimit else 1 / sw.conductance)
  else 0

/-- `updateState`, GunnsElectUserLoadSwitch.cpp:209-262; `v0` is the potential of port 0, `grounded` whether port 1 is on the ground. -/
def updateState (v0 : K) (grounded : Bool) (l : Link K) : Link K :=
  let sw := SwUtil.updateState true { l.sw with cmd := l.sw.cmd && !l.over.isSome }
  let u := voltage v0 sw l
  let ls := l.loads.map fun x => (UserLoad.step u x).1
  let shorted := sw.closed && !l.over.isSome
  let short := if shorted then l.short.compute u else l.short
  let g := loadsG ls + (if shorted then short.cond else 0)
  { l with
    sw := sw
    short := short
    loads := ls
    loadsV := u
    cond := effective grounded sw (!ls.isEmpty) g }

/-- `mSystemConductance` in `step`, GunnsBasicConductor.cpp:210-214. -/
def system (l : Link K) : K :=
  limitRange 0 (match l.block with
    | some b => l.cond * (1 - b)
    | none => l.cond) SwUtil.condLimit

/-- `GunnsBasicConductor::buildConductance`, GunnsBasicConductor.cpp:221-231. -/
def buildBase (g : K) (l : Link K) : Link K :=
  if 0 < |l.a0 - g| then
    { l with
      a0 := g
      a1 := -g
      a2 := -g
      a3 := g
      update := true }
  else l

/-- `buildConductance` and `buildSource`, GunnsElectUserLoadSwitch.cpp:268-296. -/
def build (l : Link K) : Link K :=
  match l.over with
  | some u =>
    let m : Link K := if l.a0 ≠ 0 ∨ l.a3 ≠ overG then { l with
        a0 := 0
        a1 := 0
        a2 := 0
        a3 := overG
        update := true } else l
    { m with src1 := u * m.a3 }
  | none => { buildBase (system l) l with src1 := 0 }

/-- `step`, GunnsBasicConductor.cpp:196-216. -/
def step (v0 : K) (grounded : Bool) (l : Link K) : Link K := build (updateState v0 grounded l)

/-- `GunnsBasicConductor::computeFlux`, GunnsBasicConductor.cpp:249-259. -/
def baseFlux (v0 v1 a0 : K) : K := if |v0 - v1| < max v0 v1 * eps100 then 0 else (v0 - v1) * a0

/-- `computeFlux`, GunnsElectUserLoadSwitch.cpp:398-408. -/
def computeFlux (v0 v1 : K) (grounded : Bool) (l : Link K) : Link K :=
  match l.over with
  | some _ => if grounded then l else { l with flux := -v1 * l.a3 + l.src1 }
  | none => { l with flux := baseFlux v0 v1 l.a0 }

/-- `computePower`, GunnsElectUserLoadSwitch.cpp:420-441. -/
def computePower (v0 v1 : K) (grounded : Bool) (l : Link K) : Link K :=
  match l.over with
  | some u =>
    if grounded then
      let p := (l.loads.map fun x => x.power).sum
      { l with
        loadsP := p
        power := p
        flux := p / max u dblEps }
    else
      { l with
        power := l.flux * v1
        loadsP := l.flux * v1 }
  | none =>
    let p := -l.flux * (v0 - v1)
    let q := -p - l.sw.power
    { l with
      power := p
      loadsP := if 0 ≠ l.refV ∧ 0 < l.loadsV then q * (l.refV / l.loadsV) else q }

/-- `confirmSolutionAcceptable`, GunnsElectUserLoadSwitch.cpp:308-342. -/
def confirm (v0 v1 : K) (grounded : Bool) (n : ℕ) (l : Link K) : Link K × SwUtil.Answer :=
  if 0 < n then
    let f := if n = 1 then UserLoad.updateFuses v0 l.loads else (l.loads, false)
    let l1 : Link K := { l with loads := f.1 }
    if f.2 then (l1, .reject)
    else
      let l2 := computeFlux v0 v1 grounded l1
      let c := SwUtil.confirm l2.flux v0 n l2.sw
      ({ l2 with sw := c.1 }, c.2)
  else (l, .delay)

end Gunns.LoadSw
