import Verif.Control.Valve

/-!
# What the valve controllers are meant to do
-/

namespace Gunns.Valve.Spec

open Gunns.Valve

variable {K : Type _} [Field K] [LinearOrder K] [IsStrictOrderedRing K]

/-- The nearest number between `lo` and `hi`. -/
def clip (lo hi x : K) : K := if x < lo then lo else if hi < x then hi else x

/-- The configuration and the initial data describe a valve: it opens in the sense of growing positions,
and it starts between its ends. -/
def Accepts (c : Config K) (i : Input K) : Prop :=
  c.minFluid < c.maxFluid ∧ c.minPos ≤ i.pos ∧ i.pos ≤ c.maxPos
    ∧ (i.manual = true → c.minPos ≤ i.manualVal ∧ i.manualVal ≤ c.maxPos)

/-- The configuration describes a drive. -/
def DriveOk (c : PConfig K) : Prop :=
  dblEps ≤ c.transit ∧ dblEps < |c.refCmd| ∧ dblEps ≤ c.holdPower ∧ dblEps ≤ c.stuckPower
    ∧ dblEps ≤ c.movePower

/-- The flow area fraction at a position: the straight line through the two ends, kept in [0, 1]. -/
def fluidOf (c : Config K) (p : K) : K :=
  clip 0 1 (c.minFluid + (p - c.minPos) * (c.maxFluid - c.minFluid) / (c.maxPos - c.minPos))

/-- Two states with the same set-up; everything a user can set between updates may differ. -/
def SameSetup (v w : Base K) : Prop :=
  w.minPos = v.minPos ∧ w.maxPos = v.maxPos ∧ w.bias = v.bias ∧ w.scale = v.scale

/-- The states of a valve controller: it is started, a user changes any of its settings, and it is
updated, any number of times in any order. -/
inductive Reach (c : Config K) : Base K → Prop
  | start (i : Input K) (v : Base K) : init c i = .ok v → Reach c v
  | set (v w : Base K) : Reach c v → SameSetup v w → Reach c w
  | move (v : Base K) (p : K) : Reach c v → Reach c (updatePosition v p)

/-- Two states of a powered controller with the same set-up. -/
def SameDrive (v w : Powered K) : Prop :=
  SameSetup v.base w.base ∧ w.cmdScale = v.cmdScale ∧ w.holdPower = v.holdPower
    ∧ w.movePower = v.movePower ∧ w.stuckPower = v.stuckPower ∧ w.holdRes = v.holdRes
    ∧ w.moveRes = v.moveRes ∧ w.stuckRes = v.stuckRes ∧ w.eot = v.eot ∧ w.latch = v.latch

/-- The states of a powered valve controller. -/
inductive PReach (c : PConfig K) : Powered K → Prop
  | start (i : PInput K) (v : Powered K) : initPowered c i = .ok v → PReach c v
  | set (v w : Powered K) : PReach c v → SameDrive v w → PReach c w
  | step (v : Powered K) (dt : K) : PReach c v → PReach c (updatePowered v dt)

/-- The drive has power. -/
def Live (v : Powered K) : Prop :=
  (v.supply = true ∨ v.powerGood = true) ∧ v.powerFail = false ∧ v.enabled = true

/-- Who decides the position, in order of precedence: a stuck valve, a failed valve, a hand on the
valve, and only then the drive. -/
def decided (v : Base K) (drive : K) : K :=
  match v.stuck, v.failTo, v.manual, v.malfManual with
  | true, _, _, _ => v.pos
  | false, true, _, _ => v.failVal
  | false, false, true, false => v.manualVal
  | false, false, _, _ => drive

/-- Where the drive takes the valve. -/
def Driven (v : Powered K) (c : PConfig K) (dt p : K) : Prop :=
  (v.driveStuck = true → p = v.base.pos)
    ∧ (v.driveStuck = false → v.driveFailTo = true → p = v.driveFailVal)
    ∧ (v.driveStuck = false → v.driveFailTo = false → ¬ Live v →
        (c.latch = .normallyClosed → p = c.base.minPos)
          ∧ (c.latch = .normallyOpen → p = c.base.maxPos)
          ∧ (c.latch = .latching → p = v.base.pos))
    ∧ (v.driveStuck = false → v.driveFailTo = false → Live v →
        p = v.base.pos
          + (v.cmd / c.refCmd) * (dt / c.transit) * (c.base.maxPos - c.base.minPos))

/-- Nothing but the drive moves the valve, and the drive works. -/
def Free (v : Powered K) : Prop :=
  v.base.stuck = false ∧ v.base.failTo = false
    ∧ (v.base.manual = false ∨ v.base.malfManual = true) ∧ v.driveStuck = false
    ∧ v.driveFailTo = false ∧ Live v

/-- The valve is between its ends. -/
def Within (c : Config K) (v : Base K) : Prop := c.minPos ≤ v.pos ∧ v.pos ≤ c.maxPos

instance (v : Powered K) : Decidable (Live v) := by unfold Live; infer_instance

instance (v : Powered K) : Decidable (Free v) := by unfold Free; infer_instance

instance (c : Config K) (v : Base K) : Decidable (Within c v) := by unfold Within; infer_instance

/-- A number of updates, one after another. -/
def runs (v : Powered K) (dts : List K) : Powered K := dts.foldl updatePowered v

/-- The end of travel switches say where the valve is. -/
def Truthful (c : Config K) (v : Base K) (s : Sensed) : Prop :=
  (s.opn = true ↔ v.pos = c.maxPos) ∧ (s.cls = true ↔ v.pos = c.minPos)

/-- The number of rising edges in a list, given the entry before it. -/
def edges : Bool → List Bool → Nat
  | _, [] => 0
  | false, true :: ts => edges true ts + 1
  | _, t :: ts => edges t ts

/-- The last entry of a list, given the entry before it. -/
def lastOf : Bool → List Bool → Bool
  | p, [] => p
  | _, t :: ts => lastOf t ts

/-- The toggle entries seen while enabled; a sample is the enable flag and the toggle flag. -/
def seen (samples : List (Bool × Bool)) : List Bool := (samples.filter (·.1)).map (·.2)

/-- A command handler given one sample after another. -/
def toggleRuns (dt : K) (t : Toggle) (samples : List (Bool × Bool)) : Toggle :=
  samples.foldl (fun t s =>
    Toggle.update
      { t with
        enable := s.1
        toggle := s.2 } dt) t

/-- A command handler given one queue of samples after another. -/
def queueRuns (dt : K) : Toggle → List (List (Bool × Bool)) → Option Toggle
  | t, [] => some t
  | t, q :: qs =>
    match t.updateQueue (q.map (·.2)) (q.map (·.1)) dt with
    | none => none
    | some u => queueRuns dt u qs

/-- Valve updates with a toggle in each of them. -/
def toggled (v : Powered K) (dts : List K) : Powered K :=
  dts.foldl (fun v dt => command v v.supply v.enabled (toggleCmd v.base true dt) dt) v

/-- Updates toward a fixed position with the sensor reading the position itself. -/
def targeted (tolerance target : K) (v : Powered K) (dts : List K) : Powered K :=
  dts.foldl (fun v dt => updateTarget v tolerance v.enabled target v.base.pos dt) v

/-- The last valid selection of a T-valve. -/
def selected : TPos → List TPos → TPos
  | p, [] => p
  | p, .other :: ps => selected p ps
  | _, q :: ps => selected q ps

/-- A T-valve through a list of selections. -/
def tRuns (ab : Base K × Base K) (ps : List TPos) : Base K × Base K :=
  ps.foldl (fun ab p => updateT p ab.1 ab.2) ab

/-- No malfunction on a valve. -/
def Sound (v : Base K) : Prop := v.stuck = false ∧ v.failTo = false ∧ v.malfManual = false

/-- Updates of a dual solenoid valve with the given open and close commands. -/
def dualRuns (v : Dual K) (cmds : List (Bool × Bool)) : Dual K :=
  cmds.foldl (fun v oc =>
    updateDual
      { v with
        openCmd := oc.1
        closeCmd := oc.2 }) v

/-- Whether a latching valve is left open by the given open and close commands. -/
def latched : Bool → List (Bool × Bool) → Bool
  | b, [] => b
  | _, (true, false) :: cs => latched true cs
  | _, (false, true) :: cs => latched false cs
  | b, _ :: cs => latched b cs

end Gunns.Valve.Spec
