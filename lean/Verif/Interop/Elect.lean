import Verif.Interop.Bus

/-!
# The distributed two-way electrical bus

Model of `Distributed2WayBusElect` (/repo/ms-utils/interop) with its base class. Two instances, one in each of two
simulations, agree which side supplies the voltage and which side demands power.

Simplifications: frame counts are natural numbers (unsigned in the code), floats are elements of an ordered field,
notifications are left out.
-/

namespace Gunns.Interop

variable {K : Type _} [Field K] [LinearOrder K] [IsStrictOrderedRing K]

/-- `Distributed2WayBusElectInterfaceData` (Distributed2WayBusElect.hh:55-73, Distributed2WayBusBase.hh:45-63). -/
structure EData (K : Type _) where
  /-- `mFrameCount` -/
  frame : Nat
  /-- `mFrameLoopback` -/
  loop : Nat
  /-- `mDemandMode` -/
  demand : Bool
  /-- `mDemandPower` -/
  power : K
  /-- `mSupplyVoltage` -/
  volt : K

/-- One side (Distributed2WayBusBase.hh:126-131, Distributed2WayBusElect.hh:105-131). The members `mIsPairMaster` and
`mInDataLastDemandMode` are not used by this class. -/
structure EBus (K : Type _) where
  /-- `mFramesSinceFlip` -/
  since : Int
  /-- `mLoopLatency` -/
  latency : Int
  /-- `mForcedRole` -/
  forced : Role
  inD : EData K
  outD : EData K

/-- A bus after `initialize` (Distributed2WayBusElect.cpp:84-95, Distributed2WayBusBase.cpp:134-146). -/
def EBus.init (primary : Bool) (voltage : K) : EBus K :=
  { since := 0, latency := 0, forced := .none,
    inD := { frame := 0, loop := 0, demand := primary, power := 0, volt := voltage },
    outD := { frame := 0, loop := 0, demand := !primary, power := 0, volt := voltage } }

/-- `processInputs` (Distributed2WayBusElect.cpp:103-106, `updateFrameCounts` Distributed2WayBusBase.cpp:151-157). -/
def eInputs (b : EBus K) : EBus K :=
  { b with
    since := b.since + 1
    latency := (b.outD.frame + 1 : Int) - b.inD.loop
    outD := { b.outD with
      frame := b.outD.frame + 1
      loop := b.inD.frame } }

/-- `Distributed2WayBusElectSupplyData` (Distributed2WayBusElect.hh:42-47). -/
structure Supply (K : Type _) where
  available : Bool
  voltage : K

/-- The highest available voltage (Distributed2WayBusElect.cpp:122-127). -/
def availV (ss : List (Supply K)) : K :=
  ss.foldl (fun v s => if s.available = true ∧ v < s.voltage then s.voltage else v) 0

/-- A call of `update`: the supplies at the time, the local voltage and the local power demand. -/
structure Call (K : Type _) where
  supplies : List (Supply K)
  volt : K
  power : K

/-- The choice of the role in `update` (Distributed2WayBusElect.cpp:129-163). -/
def eRole (avail : K) (b : EBus K) : EBus K :=
  match b.forced with
  | .supply => { b with outD := { b.outD with demand := false } }
  | .demand => { b with outD := { b.outD with demand := true } }
  | .none =>
    if 0 < b.inD.loop then
      if b.outD.demand = true then
        if b.inD.demand = true ∧ b.latency < b.since then
          { b with
            since := 0
            outD := { b.outD with demand := false } }
        else b
      else
        if avail < b.inD.volt then
          { b with
            since := 0
            outD := { b.outD with demand := true } }
        else b
    else b

/-- `update` (Distributed2WayBusElect.cpp:119-179). -/
def eUpdate (b : EBus K) (c : Call K) : EBus K :=
  let b := eRole (availV c.supplies) b
  if b.outD.demand = true then
    { b with outD := { b.outD with
        volt := availV c.supplies
        power := c.power } }
  else
    { b with outD := { b.outD with
        volt := c.volt
        power := 0 } }

/-- `getRemoteLoad` (Distributed2WayBusElect.hh:168-174). -/
def getRemoteLoad (b : EBus K) : K := if b.outD.demand = true then 0 else b.inD.power

/-- `getRemoteSupply` (Distributed2WayBusElect.hh:181-184). -/
def getRemoteSupply (b : EBus K) : K := b.inD.volt

/-- A frame of one side: newly received data if any, `processInputs`, and calls of `update`
(Distributed2WayBusElect.cpp:97-118). -/
def eFrame (recv : Option (EData K)) (role : Role) (calls : List (Call K)) (b : EBus K) : EBus K :=
  calls.foldl eUpdate (eInputs { b with
    forced := role
    inD := recv.getD b.inD })

/-- Both sides and the data on the way to each. -/
structure ESys (K : Type _) where
  side : Bool → EBus K
  chan : Bool → List (EData K)

/-- A frame of side `who`, which receives the newest of the first `count` items on the way to it. -/
structure EEvent (K : Type _) where
  who : Bool
  count : Nat
  role : Role
  calls : List (Call K)

/-- A step of the two sides. -/
def EEvent.run (e : EEvent K) (s : ESys K) : ESys K :=
  let b := eFrame ((s.chan e.who).take e.count).getLast? e.role e.calls (s.side e.who)
  { side := fun x => if x = e.who then b else s.side x
    chan := fun x => if x = e.who then (s.chan x).drop e.count else s.chan x ++ [b.outD] }

/-- The two sides after initialisation; `p` says which sides are primary. -/
def ESys.init (p : Bool → Bool) (voltage : Bool → K) : ESys K :=
  { side := fun x => EBus.init (p x) (voltage x)
    chan := fun _ => [] }

/-- A history. -/
def ESys.after (s : ESys K) (es : List (EEvent K)) : ESys K := es.foldl (fun s e => e.run s) s

/-- The state before event `t` of an endless run. -/
def ESys.run (s : ESys K) (e : Nat → EEvent K) : Nat → ESys K
  | 0 => s
  | t + 1 => (e t).run (s.run e t)

end Gunns.Interop
