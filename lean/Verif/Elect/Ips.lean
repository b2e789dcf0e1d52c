import Mathlib.Algebra.Order.Field.Basic
import Mathlib.Data.List.Range
import Verif.Base.Const
import Verif.Solver.Model

/-!
# The internal power supply

Model of `GunnsElectIps` (`aspects/electrical/IPS/GunnsElectIps.cpp` and `.hh`).

Simplifications: doubles are elements of an ordered field.  A source is its number, and `INVALID_SOURCE` is `none`.  The
back-up source is the last one when back-up power is implemented, as `initialize` sets it (which then requires two
sources).  Messages, the flag `mAdmittanceUpdate` and `mLastActivePowerSource`, which is only used within one call, are left
out.
-/

namespace Gunns.Ips

variable {K : Type} [Field K] [LinearOrder K]

/-- The values of the supply. -/
structure Supply (K : Type) where
  n : ℕ
  backup : Bool
  under : K
  threshold : K
  tol : K
  thermal : K
  backMin : K
  backMax : K
  gTol : K
  maxSwitches : ℕ
  cmdUsed : Bool
  unselG : K
  load : K
  loadOn : K
  aux1 : K
  aux2 : K
  added : K
  bias : Option K
  malfAll : Bool
  malf : ℕ → Bool
  cmdOn : Bool
  active : Option ℕ
  switches : ℕ
  total : K
  g : ℕ → K
  activeG : ℕ → K
  adm : ℕ → K
  outPower : ℕ → K
  supplyV : ℕ → K
  inCurrent : ℕ → K
  inVoltage : ℕ → K
  powerValid : Bool
  backupInUse : Bool
  backupInRange : Bool
  heatOn : K
  heat : K
  flux : K
  power : K

/-- A change of one entry of an array. -/
def put {α : Type} (f : ℕ → α) (i : ℕ) (x : α) : ℕ → α := fun j => if j = i then x else f j

/-- `updatePowerLoad`, GunnsElectIps.hh:410-416. -/
def Supply.powerLoad (r : Supply K) : K := if r.added > 0 then r.added else r.loadOn + r.aux1 + r.aux2

/-- `updateInputConductance`, GunnsElectIps.cpp:332-345. -/
def Supply.conductances (r : Supply K) (v : ℕ → K) : Supply K :=
  { r with
    total := r.powerLoad
    g := match r.active with
      | none => fun _ => r.unselG
      | some a => if v a > dblEps then put (fun _ => r.unselG) a (r.powerLoad / (v a * v a)) else fun _ => r.unselG }

/-- One pass of the loop of `updateAdmittance`, GunnsElectIps.cpp:548-552 with .hh:401-405. -/
def Supply.admittance (r : Supply K) (port : ℕ) : Supply K :=
  if |r.activeG port - r.g port| > r.gTol then { r with
      activeG := put r.activeG port (r.g port)
      adm := put r.adm (port * r.n + port) (r.g port) }
  else r

/-- `minorStep` and `step`, GunnsElectIps.cpp:312-325. -/
def Supply.step (r : Supply K) (v : ℕ → K) : Supply K := (List.range r.n).foldl Supply.admittance (r.conductances v)

/-- What all the selections ask of a source: no malfunction, and on when commands are used. -/
def Supply.allowed (r : Supply K) (s : ℕ) : Bool := !r.malf s && !r.malfAll && (r.cmdUsed && r.cmdOn || !r.cmdUsed)

/-- The loop of the selections, GunnsElectIps.cpp:355-366, 378-391 and 473-481: the source and its voltage. -/
def scan (ok : ℕ → Bool) (v : ℕ → K) (tol : K) (n : ℕ) (start : Option ℕ × K) : Option ℕ × K :=
  (List.range n).foldl (fun a s => if ok s = true ∧ v s - a.2 > tol then (some s, v s) else a) start

/-- `getVoltagePrimarySourceGreaterThanBackupThreshold`, GunnsElectIps.cpp:352-368. -/
def Supply.aboveThreshold (r : Supply K) (v : ℕ → K) : Option ℕ :=
  (scan (fun s => r.allowed s && decide (v s > r.threshold)) v r.tol (r.n - 1) (none, 0)).1

/-- `getVoltagePrimarySourceGreaterUnderVoltageLimit`, GunnsElectIps.cpp:375-402. -/
def Supply.aboveLimit (r : Supply K) (v : ℕ → K) : Option ℕ :=
  match scan (fun s => r.allowed s && decide (v s > r.under)) v r.tol (r.n - 1) (none, 0) with
  | (none, _) => none
  | (some s, x) => if r.allowed (r.n - 1) = true ∧ v (r.n - 1) - x > r.tol then some (r.n - 1) else some s

/-- `getVoltageBackupWithinRange`, GunnsElectIps.cpp:409-421. -/
def Supply.inRange (r : Supply K) (v : ℕ → K) : Option ℕ :=
  if r.backup = true ∧ r.allowed (r.n - 1) = true ∧ r.backMin ≤ v (r.n - 1) ∧ v (r.n - 1) ≤ r.backMax then some (r.n - 1) else none

/-- `getVoltageSourceToUseWithBackup`, GunnsElectIps.cpp:427-442. -/
def Supply.withBackup (r : Supply K) (v : ℕ → K) : Option ℕ :=
  match r.aboveThreshold v with
  | some s => some s
  | none => match r.aboveLimit v with
    | some s => some s
    | none => r.inRange v

/-- The active source and its voltage when it can stay, GunnsElectIps.cpp:450-471. -/
def Supply.start (r : Supply K) (v : ℕ → K) : Option ℕ × K :=
  match r.active with
  | none => (none, 0)
  | some a => if r.allowed a = true ∧ ¬ v a < r.under then (some a, v a) else (none, 0)

/-- `getVoltageSourceToUseWithoutBackup`, GunnsElectIps.cpp:449-484. -/
def Supply.withoutBackup (r : Supply K) (v : ℕ → K) : Option ℕ :=
  (scan (fun s => r.allowed s && decide (v s ≥ r.under)) v r.tol r.n (r.start v)).1

/-- `calculateFlow`, GunnsElectIps.cpp:489-542. -/
def Supply.flowTo (r : Supply K) (v : ℕ → K) : Option ℕ → Supply K
  | some s => { r with
      powerValid := decide (v s > r.under)
      active := if v s > 0 then some s else r.active
      outPower := fun i => if i = s then (if v s > 0 then r.total else r.outPower s) else 0
      supplyV := fun i => if i = s then (if v s > 0 then v s else r.supplyV s) else 0
      inCurrent := fun i => if i = s then (if v s > 0 then r.total / v s else r.inCurrent s) else 0
      inVoltage := fun i => if i = s ∧ v s > 0 then v s else r.inVoltage i
      backupInUse := r.backup && decide (s = r.n - 1) }
  | none => { r with
      powerValid := false
      active := none
      backupInUse := false
      outPower := fun _ => 0
      supplyV := fun _ => 0
      inCurrent := fun _ => 0
      inVoltage := fun _ => 0 }

/-- The source that `confirmSolutionAcceptable` goes to, GunnsElectIps.cpp:616-632. -/
def Supply.target (r : Supply K) (v : ℕ → K) : Option ℕ :=
  if r.switches < r.maxSwitches then
    if r.backup = true then r.withBackup v else r.withoutBackup v
  else r.active

/-- `confirmSolutionAcceptable`, GunnsElectIps.cpp:609-664. -/
def Supply.confirm (r : Supply K) (v : ℕ → K) (converged : ℕ) : SolRes × Supply K :=
  if converged > 0 then
    let q := r.flowTo v (r.target v)
    if r.active = q.active then
      (if (List.range r.n).any (fun s => decide (0 > v s)) = true then .reject else .confirm, q)
    else (.reject, { q with switches := q.switches + 1 })
  else (.confirm, r)

/-- `computeFlows`, GunnsElectIps.cpp:558-588 with .hh:387-394. -/
def Supply.flows (r : Supply K) (v : ℕ → K) : Supply K :=
  let r : Supply K := { r with
    switches := 0
    flux := ((List.range r.n).map fun i => v i * r.adm i).sum
    power := ((List.range r.n).map fun i => v i * r.adm i * v i).sum
    loadOn := match r.bias with
      | none => r.load
      | some b => r.load + b }
  { r with
    total := r.powerLoad
    heatOn := r.loadOn * r.thermal
    backupInRange := (r.inRange v).isSome
    heat := if r.powerValid then r.loadOn * r.thermal else 0 }

end Gunns.Ips
