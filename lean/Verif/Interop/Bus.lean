import Verif.Base.Const

/-!
# The distributed two-way fluid bus

Model of `Distributed2WayBusBase` and `Distributed2WayBusFluid` (/repo/ms-utils/interop). Two instances of the class,
one in each of two simulations, exchange data and agree which side supplies a fluid state and which side demands a
flow.

Simplifications:
* frame counts are natural numbers; in the code they are unsigned and wrap around after 2³² frames;
* doubles and floats are elements of an ordered field;
* notifications are left out;
* the two sides are configured with the same numbers of fluids and trace compounds, so that the assignment of
  received data (Distributed2WayBusFluid.cpp:56-69, 277-286) copies all of it.
-/

namespace Gunns.Interop

variable {K : Type _} [Field K] [LinearOrder K] [IsStrictOrderedRing K]

/-- `Roles` (Distributed2WayBusBase.hh:102-106). -/
inductive Role
  | none
  | supply
  | demand
  deriving DecidableEq

/-- `FluidDistributedMixtureData` (Distributed2WayBusFluid.hh). -/
structure Mix (K : Type _) where
  energy : K
  numFluid : Nat
  numTc : Nat
  fluid : Nat → K
  tc : Nat → K

/-- `Distributed2WayBusFluidInterfaceData` (Distributed2WayBusFluid.hh:82-106, Distributed2WayBusBase.hh:45-63). -/
structure Data (K : Type _) extends Mix K where
  /-- `mFrameCount` -/
  frame : Nat
  /-- `mFrameLoopback` -/
  loop : Nat
  /-- `mDemandMode` -/
  demand : Bool
  cap : K
  source : K

/-- `setMoleFractions` and `setTcMoleFractions` (Distributed2WayBusFluid.cpp:118-151): `n` is the size of the
array written, `size` that of the array given. -/
def copyFractions (n : Nat) (f : Nat → K) (size : Nat) (old : Nat → K) : Nat → K :=
  fun i => if i < min n size then f i else if i < n then 0 else old i

/-- `hasValidData` (Distributed2WayBusFluid.cpp:294-310). -/
def Data.valid (d : Data K) : Bool :=
  if d.frame < 1 ∨ d.energy ≤ 0 ∨ d.cap < 0 ∨ (d.source < 0 ∧ d.demand = false) then false
  else (List.range d.numFluid).all (fun i => decide (0 ≤ d.fluid i)) &&
    (List.range d.numTc).all (fun i => decide (0 ≤ d.tc i))

/-- One side of a fluid bus (Distributed2WayBusBase.hh:126-131, Distributed2WayBusFluid.hh:202-231). -/
structure Bus (K : Type _) where
  /-- `mIsPairMaster` -/
  master : Bool
  /-- `mInDataLastDemandMode` -/
  last : Bool
  /-- `mFramesSinceFlip` -/
  since : Int
  /-- `mLoopLatency` -/
  latency : Int
  /-- `mForcedRole` -/
  forced : Role
  inD : Data K
  outD : Data K
  /-- `mDemandLimitGain` -/
  gain : K
  /-- `mDemandLimitFlowRate` -/
  limit : K

/-- `mModingCapacitanceRatio` (Distributed2WayBusFluid.cpp:314). -/
def ratio : K := 5 / 4

/-- `mDemandFilterConstA` (Distributed2WayBusFluid.cpp:316). -/
def constA : K := 3 / 2

/-- `mDemandFilterConstB` (Distributed2WayBusFluid.cpp:318). -/
def constB : K := 3 / 4

/-- Data after `FluidDistributedMixtureData::initialize` (Distributed2WayBusFluid.cpp:79-106) of newly constructed
interface data (Distributed2WayBusFluid.cpp:254-262, Distributed2WayBusBase.cpp:68-75). -/
def Data.init (nFluid nTc : Nat) : Data K :=
  { energy := 0, numFluid := nFluid, numTc := nTc, fluid := fun _ => 0, tc := fun _ => 0, frame := 0, loop := 0,
    demand := false, cap := 0, source := 0 }

/-- A constructed (Distributed2WayBusFluid.cpp:323-332, Distributed2WayBusBase.cpp:106-119) and initialised
(Distributed2WayBusFluid.cpp:349-361, Distributed2WayBusBase.cpp:134-146) bus. -/
def Bus.init (master : Bool) (nFluid nTc : Nat) : Bus K :=
  { master := master, last := false, since := 0, latency := 0, forced := .none, inD := Data.init nFluid nTc,
    outD := Data.init nFluid nTc, gain := 0, limit := 0 }

/-- `isInDemandRole` (Distributed2WayBusBase.hh:178-181). -/
def Bus.inDemand (b : Bus K) : Bool := b.outD.demand

/-- `updateFrameCounts` (Distributed2WayBusBase.cpp:151-157). -/
def updateFrameCounts (b : Bus K) : Bus K :=
  { b with
    since := b.since + 1
    latency := (b.outD.frame + 1 : Int) - b.inD.loop
    outD := { b.outD with
      frame := b.outD.frame + 1
      loop := b.inD.frame } }

/-- `flipToDemandMode` (Distributed2WayBusFluid.cpp:567-574). -/
def flipToDemandMode (b : Bus K) : Bus K :=
  if b.forced ≠ .supply then
    { b with
      since := 0
      outD := { b.outD with demand := true } }
  else b

/-- `flipToSupplyMode` (Distributed2WayBusFluid.cpp:579-586). -/
def flipToSupplyMode (b : Bus K) : Bus K :=
  if b.forced ≠ .demand then
    { b with
      since := 0
      outD := { b.outD with demand := false } }
  else b

/-- `flipModesOnInput` (Distributed2WayBusFluid.cpp:521-544). -/
def flipModesOnInput (b : Bus K) : Bus K :=
  if b.forced = .demand ∧ b.inDemand = false then flipToDemandMode b
  else if b.forced = .supply ∧ b.inDemand = true then flipToSupplyMode b
  else if b.inD.valid = true then
    let c :=
      if b.outD.demand = true ∧ b.inD.demand = true ∧ b.last = false then flipToSupplyMode b
      else if b.inD.demand = false ∧ b.outD.demand = false then
        if b.outD.cap < b.inD.cap ∨ (b.master = true ∧ b.outD.cap = b.inD.cap) then flipToDemandMode b else b
      else b
    { c with last := c.inD.demand }
  else b

/-- `processInputs` (Distributed2WayBusFluid.cpp:472-479). -/
def processInputs (b : Bus K) : Bus K := flipModesOnInput (updateFrameCounts b)

/-- `flipModesOnCapacitance` (Distributed2WayBusFluid.cpp:550-562). The source is zeroed whether or not the flip
takes place. -/
def flipModesOnCapacitance (b : Bus K) : Bus K :=
  if b.latency < b.since ∧ b.outD.cap * ratio < b.inD.cap then
    let c := flipToDemandMode b
    { c with outD := { c.outD with source := 0 } }
  else b

/-- `processOutputs` (Distributed2WayBusFluid.cpp:593-599). -/
def processOutputs (capacitance : K) (b : Bus K) : Bus K :=
  let c := { b with outD := { b.outD with cap := capacitance } }
  if c.inDemand = false then flipModesOnCapacitance c else c

/-- A fluid state or flow state given by the local model: the mixture, and its pressure or flow rate
(Distributed2WayBusFluid.hh:114-150). -/
structure Given (K : Type _) extends Mix K where
  value : K

/-- The part that `setFluidState` and `setFlowState` have in common: source, energy and fractions go to the output. -/
def putState (g : Given K) (d : Data K) : Data K :=
  { d with
    source := g.value
    energy := g.energy
    fluid := copyFractions d.numFluid g.fluid g.numFluid d.fluid
    tc := copyFractions d.numTc g.tc g.numTc d.tc }

/-- `setFluidState` (Distributed2WayBusFluid.cpp:373-384). -/
def setFluidState (g : Given K) (b : Bus K) : Bus K :=
  if b.inDemand = true then b else { b with outD := putState g b.outD }

/-- `setFlowState` (Distributed2WayBusFluid.cpp:425-436). -/
def setFlowState (g : Given K) (b : Bus K) : Bus K :=
  if b.inDemand = false then b else { b with outD := putState g b.outD }

/-- The part that `getFluidState` and `getFlowState` have in common: the state object `g` takes source, energy and
fractions of the input. -/
def takeState (d : Data K) (g : Given K) : Given K :=
  { g with
    value := d.source
    energy := d.energy
    fluid := copyFractions g.numFluid d.fluid d.numFluid g.fluid
    tc := copyFractions g.numTc d.tc d.numTc g.tc }

/-- `getFluidState` (Distributed2WayBusFluid.cpp:400-410): `none` if it returns false. -/
def getFluidState (b : Bus K) (g : Given K) : Option (Given K) :=
  if b.inDemand = true ∧ b.inD.valid = true ∧ b.inD.demand = false then some (takeState b.inD g) else none

/-- `getFlowState` (Distributed2WayBusFluid.cpp:456-466): `none` if it returns false. -/
def getFlowState (b : Bus K) (g : Given K) : Option (Given K) :=
  if b.inDemand = false ∧ b.inD.valid = true ∧ b.inD.demand = true then some (takeState b.inD g) else none

/-- `computeDemandLimit` (Distributed2WayBusFluid.cpp:490-515); the limit is the returned value. -/
def computeDemandLimit (dt pressure : K) (b : Bus K) : Bus K :=
  if b.inDemand = true ∧ b.inD.demand = false ∧ dblEps < dt ∧ dblEps < b.outD.cap ∧ dblEps < b.inD.cap then
    let exponent := min 100 (max 1 b.latency)
    let lagGain : K := min 1 (constA * constB ^ exponent.toNat)
    let csOverCd := min ratio (max 1 (b.inD.cap / b.outD.cap))
    let gain := lagGain + (1 - lagGain) * (csOverCd - 1) * 4
    { b with
      gain := gain
      limit := gain * |pressure - b.inD.source| / (dt * (1 / b.outD.cap + 1 / b.inD.cap)) }
  else
    { b with
      gain := 0
      limit := 0 }

/-! ## Two sides -/

/-- A frame of one side, in the order given in Distributed2WayBusFluid.hh:181-198: newly received data if any,
`processInputs`, the state of the local model for the present role, `processOutputs`. The role may be forced
before (Distributed2WayBusBase.hh:152-171). -/
def frame (recv : Option (Data K)) (role : Role) (fluid flow : Given K) (cap : K) (b : Bus K) : Bus K :=
  let b := { b with forced := role }
  let b := match recv with
    | none => b
    | some d => { b with inD := d }
  let b := processInputs b
  let b := if b.inDemand = true then setFlowState flow b else setFluidState fluid b
  processOutputs cap b

/-- Both sides and the data on the way to each. -/
structure Sys (K : Type _) where
  side : Bool → Bus K
  chan : Bool → List (Data K)

/-- A frame of side `who`, which receives the newest of the first `count` items on the way to it; older ones are
lost, and with `count = 0` it keeps the data it has. -/
structure Event (K : Type _) where
  who : Bool
  count : Nat
  role : Role
  fluid : Given K
  flow : Given K
  cap : K

/-- A step of the two sides. -/
def Event.run (e : Event K) (s : Sys K) : Sys K :=
  let b := frame ((s.chan e.who).take e.count).getLast? e.role e.fluid e.flow e.cap (s.side e.who)
  { side := fun x => if x = e.who then b else s.side x
    chan := fun x => if x = e.who then (s.chan x).drop e.count else s.chan x ++ [b.outD] }

/-- The two sides after initialisation; `m` says which sides are masters. -/
def Sys.init (m : Bool → Bool) (nFluid nTc : Nat) : Sys K :=
  { side := fun x => Bus.init (m x) nFluid nTc
    chan := fun _ => [] }

/-- A history. -/
def Sys.after (s : Sys K) (es : List (Event K)) : Sys K := es.foldl (fun s e => e.run s) s

end Gunns.Interop
