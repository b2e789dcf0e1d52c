import Verif.Base.Loop
import Mathlib.Order.Defs.LinearOrder
import Mathlib.Algebra.Notation.Defs

/-!
# Initialisation of the solver: the decision logic

Model of `Gunns::initialize` and its checks (/repo/core/Gunns.cpp:317-581), the node registration
(593-639), the orchestrator replacement (647-654), `restart` (661-690) and the guard of `step`
(1099-1137).

Only what decides success or failure is modelled.  A link is its address and whether it is
initialised; a node is whether its `validate` leaves it initialised (for a basic node always, for a
fluid node when its contents are sound, /repo/core/GunnsFluidNode.cpp:210-245).  Pointers in the link
vector and node list are assumed non-null.  Doubles are an ordered type, so a NaN tolerance is not
modelled.
-/

namespace Gunns.Init

/-- How a call ends. -/
inductive Outcome
  | ok
  /-- `TsInitializationException` (or `std::bad_array_new_length`, see `initialize`) -/
  | exception
  /-- undefined behaviour -/
  | undefined
  deriving DecidableEq, Repr

/-- `GunnsConfigData`, /repo/core/Gunns.hh, with whether the name is empty. -/
structure Config (K : Type _) where
  nameEmpty : Bool
  /-- `mConvergenceTolerance` -/
  tolerance : K
  /-- `mMinLinearizationPotential` -/
  minLinearization : K
  /-- `mMinorStepLimit` -/
  minorLimit : Int
  /-- `mDecompositionLimit` -/
  decompLimit : Int

/-- A link as registered: its address and `isInitialized()`. -/
structure LinkRef where
  addr : Nat
  inited : Bool
  deriving DecidableEq

/-- The state that matters, /repo/core/Gunns.cpp:117-197 (initial values in `fresh`). -/
structure Net where
  /-- `mInitAttempted` -/
  attempted : Bool
  /-- `mInitFlag` -/
  flag : Bool
  /-- `mNodes`: null, or the nodes (the last one is the ground node) with their validity -/
  nodes : Option (List Bool)
  /-- `mFlowOrchestrator` is not null -/
  orchestrator : Bool

/-- Construction, /repo/core/Gunns.cpp:117-197. -/
def fresh : Net := ⟨false, false, none, false⟩

/-- `mNumNodes` -/
def Net.numNodes (s : Net) : Nat := (s.nodes.getD []).length

/-- `mNetworkSize` as set by `initialize`, /repo/core/Gunns.cpp:338. -/
def Net.size (s : Net) : Int := (s.numNodes : Int) - 1

variable {K : Type _} [LinearOrder K] [Zero K]

/-- `Gunns::validateConfigData`, /repo/core/Gunns.cpp:496-521: false is an exception. -/
def configOk (c : Config K) : Bool :=
  if c.tolerance ≤ 0 then false
  else if c.minLinearization ≤ 0 then false
  else if c.minorLimit < 1 then false
  else if c.decompLimit < 1 then false
  else true

/-- The inner loop of `Gunns::verifyLinkInitialization`, /repo/core/Gunns.cpp:541-548: no earlier link
has the same address. -/
def noEarlier (links : List LinkRef) (i : Nat) : Bool :=
  loop (fun j ok => if links[j]?.map LinkRef.addr = links[i]?.map LinkRef.addr then false else ok) i true

/-- `Gunns::verifyLinkInitialization`, /repo/core/Gunns.cpp:529-550: false is an exception. -/
def linksOk (links : List LinkRef) : Bool :=
  loop (fun i ok =>
    if !ok then false
    else if !((links[i]?.map LinkRef.inited).getD false) then false
    else noEarlier links i) links.length true

/-- `Gunns::verifyNodeInitialization`, /repo/core/Gunns.cpp:558-581: false is an exception. -/
def nodesOk (s : Net) : Bool :=
  if s.size < 1 then false
  else loop (fun i ok => ok && (s.nodes.getD [])[i]?.getD false) s.numNodes true

/-- `Gunns::initialize`, /repo/core/Gunns.cpp:317-485.  With no node the network size is -1 and the
first array allocation with that size (352) throws `std::bad_array_new_length`; this is counted as an
exception.  A null orchestrator (possible through `setFlowOrchestrator(0)`) is dereferenced at 457;
the orchestrator itself refuses a network without links
(/repo/core/GunnsBasicFlowOrchestrator.cpp:92-98). -/
def initialize' (c : Config K) (links : List LinkRef) (s : Net) : Net × Outcome :=
  let s := { s with flag := false }
  if s.attempted then (s, .exception)
  else
    let s := { s with attempted := true }
    if c.nameEmpty then (s, .exception)
    else if !configOk c then (s, .exception)
    else if s.size < 0 then (s, .exception)
    else if !linksOk links then (s, .exception)
    else if !nodesOk s then (s, .exception)
    else if !s.orchestrator then (s, .undefined)
    else if links.length < 1 then (s, .exception)
    else ({ s with flag := true }, .ok)

/-- `Gunns::initializeNodes` and `initializeFluidNodes`, /repo/core/Gunns.cpp:593-639. -/
def initializeNodes (nodes : List Bool) (s : Net) : Net × Outcome :=
  if s.nodes.isSome || s.orchestrator then (s, .exception)
  else
    ({ s with
      nodes := some nodes
      orchestrator := true }, .ok)

/-- `Gunns::setFlowOrchestrator`, /repo/core/Gunns.cpp:647-654. -/
def setOrchestrator (nonNull : Bool) (s : Net) : Net × Outcome :=
  ({ s with orchestrator := nonNull }, .ok)

/-- `Gunns::restart`, /repo/core/Gunns.cpp:661-690.  `good` says that no node or link throws in its own
restart.  The ground node is accessed whether or not there is one. -/
def restart (good : Bool) (s : Net) : Net × Outcome :=
  let s := { s with flag := false }
  if s.numNodes = 0 then (s, .undefined)
  else if !good then (s, .exception)
  else ({ s with flag := true }, .ok)

/-- The guard of `Gunns::step`, /repo/core/Gunns.cpp:741 and 1133-1136. -/
def step (s : Net) : Net × Outcome := if s.flag then (s, .ok) else (s, .exception)

/-- Calls on a network object. -/
inductive Call (K : Type _)
  | nodes (l : List Bool)
  | orchestrator (nonNull : Bool)
  | init (c : Config K) (links : List LinkRef)
  | restart (good : Bool)
  | step

/-- Execute one call. -/
def Call.run : Call K → Net → Net × Outcome
  | .nodes l, s => initializeNodes l s
  | .orchestrator b, s => setOrchestrator b s
  | .init c links, s => initialize' c links s
  | .restart g, s => Init.restart g s
  | .step, s => Init.step s

/-- The state after a history (exceptions are caught by the caller). -/
def after : List (Call K) → Net → Net
  | [], s => s
  | c :: cs, s => after cs (c.run s).1

end Gunns.Init
