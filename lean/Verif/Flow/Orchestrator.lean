import Verif.Base.Loop

/-!
# The fluid flow orchestrator

Model of `core/GunnsFluidFlowOrchestrator.cpp`. What the links and nodes do when they are told to compute,
transport or integrate is not modelled here: the orchestrator only uses the flow directions of the links'
ports, the node maps and whether nodes overflow. These are inputs (`Net`), taken after all links have
computed their flows; that `transportFlows` does not change port directions or node maps is an assumption.
The model keeps a log of the calls made.
-/

namespace Gunns.Flow

/-- Flow direction of a port (`GunnsBasicLink::PortDirection`, core/GunnsBasicLink.hh:157-162). -/
inductive Dir
  | none | source | sink | both
  deriving DecidableEq

/-- `GunnsFluidFlowOrchestrator::NodeStates` (core/GunnsFluidFlowOrchestrator.hh:66-70). -/
inductive NodeState
  | incomplete | overflowing | complete
  deriving DecidableEq

/-- What the orchestrator sees of a network: `links` = mNumLinks, `nodes` = mNumNodes - 1 (all but the
ground node, whose number is `nodes`), port counts, node maps and directions of the links, and
`isOverflowing` of each node. -/
structure Net where
  links : Nat
  nodes : Nat
  ports : Nat → Nat
  node : Nat → Nat → Nat
  dir : Nat → Nat → Dir
  over : Nat → Bool

/-- Calls made by the orchestrator. `transport l true` is a transport forced before the source nodes were
ready, with its warning. -/
inductive Event
  | compute (l : Nat)
  | transport (l : Nat) (early : Bool)
  | integrate (n : Nat)
  deriving DecidableEq

/-- mLinkStates, mNodeStates, mNumIncompleteLinks and the log of calls, oldest first. -/
structure St where
  linkDone : Nat → Bool
  nodeState : Nat → NodeState
  num : Nat
  log : List Event

/-- `linkSourceNodesReady` (core/GunnsFluidFlowOrchestrator.cpp:242-254); the early return is modelled by a
flag. -/
def linkSourceNodesReady (net : Net) (s : St) (l : Nat) : Bool :=
  loop (fun p r => if net.dir l p = .source ∨ net.dir l p = .both then
      (if s.nodeState (net.node l p) = .overflowing then false else r) else r) (net.ports l) true

/-- `nodeInputLinksComplete` (core/GunnsFluidFlowOrchestrator.cpp:264-281). -/
def nodeInputLinksComplete (net : Net) (s : St) (n : Nat) : Bool :=
  loop (fun l r => loop (fun p r => if n = net.node l p ∧ s.linkDone l = false ∧
      (net.dir l p = .sink ∨ net.dir l p = .both) then false else r) (net.ports l) r) net.links true

/-- `countIncompleteLinks` (core/GunnsFluidFlowOrchestrator.cpp:288-297). -/
def countIncompleteLinks (net : Net) (s : St) : Nat :=
  loop (fun l c => if s.linkDone l = false then c + 1 else c) net.links 0

/-- `checkAllNodesComplete` (core/GunnsFluidFlowOrchestrator.cpp:201-209). -/
def checkAllNodesComplete (net : Net) (s : St) : Bool :=
  loop (fun n r => if s.nodeState n ≠ .complete then false else r) net.nodes true

/-- `getFirstIncompleteLink` (core/GunnsFluidFlowOrchestrator.cpp:222-232); `none` is the exception. -/
def getFirstIncompleteLink (net : Net) (s : St) : Option Nat :=
  loop (fun l r => if r = none ∧ s.linkDone l = false then some l else r) net.links none

/-- `transportFlows` of a link and marking it complete (lines 130-131 and 184-185). -/
def transport (l : Nat) (early : Bool) (s : St) : St :=
  { s with
    linkDone := fun k => if k = l then true else s.linkDone k
    log := s.log ++ [.transport l early] }

/-- `integrateFlows` of a node and marking it complete (lines 139-140). -/
def integrate (n : Nat) (s : St) : St :=
  { s with
    nodeState := fun k => if k = n then .complete else s.nodeState k
    log := s.log ++ [.integrate n] }

/-- Links loop of a pass (core/GunnsFluidFlowOrchestrator.cpp:128-133). -/
def linkPass (net : Net) (s : St) : St :=
  loop (fun l s => if s.linkDone l = false ∧ linkSourceNodesReady net s l = true
    then transport l false s else s) net.links s

/-- Nodes loop of a pass (core/GunnsFluidFlowOrchestrator.cpp:137-142). -/
def nodePass (net : Net) (s : St) : St :=
  loop (fun n s => if s.nodeState n ≠ .complete ∧ nodeInputLinksComplete net s n = true
    then integrate n s else s) net.nodes s

/-- Result of `checkAllComplete`: the exception, or its return value and the state. -/
inductive Check
  | throws
  | value (b : Bool) (s : St)

/-- `checkAllComplete` (core/GunnsFluidFlowOrchestrator.cpp:160-192). -/
def checkAllComplete (net : Net) (s : St) : Check :=
  let c := countIncompleteLinks net s
  if c = 0 ∧ checkAllNodesComplete net s = true then
    .value true { s with num := 0 }
  else if c ≥ s.num then
    match getFirstIncompleteLink net s with
    | none => .throws
    | some l => .value false { transport l true s with num := c }
  else .value false { s with num := c }

/-- How an update ended; `running` is the do-while loop still going after the given number of passes. -/
inductive Outcome
  | running (s : St)
  | aborted (s : St)
  | done (s : St)

/-- The do-while loop, at most `fuel` passes (core/GunnsFluidFlowOrchestrator.cpp:123-147). -/
def passes (net : Net) : Nat → St → Outcome
  | 0, s => .running s
  | fuel + 1, s =>
    let s := nodePass net (linkPass net s)
    match checkAllComplete net s with
    | .throws => .aborted s
    | .value true s => .done s
    | .value false s => passes net fuel s

/-- First part of `update` (core/GunnsFluidFlowOrchestrator.cpp:98-119): compute all flows, mark links
incomplete, nodes incomplete or overflowing, ground complete. Entries beyond the arrays do not exist in
the code; here they are like ground. -/
def start (net : Net) : St where
  linkDone _ := false
  nodeState n := if n < net.nodes then (if net.over n then .overflowing else .incomplete) else .complete
  num := net.links
  log := loop (fun l log => log ++ [Event.compute l]) net.links []

/-- `update` (core/GunnsFluidFlowOrchestrator.cpp:98-151) with at most `fuel` passes. -/
def update (net : Net) (fuel : Nat) : Outcome := passes net fuel (start net)

end Gunns.Flow
