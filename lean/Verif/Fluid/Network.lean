import Verif.Fluid.Node
import Verif.Flow.Orchestrator

/-!
# A network of fluid conductors

Model of a flow update of a network whose links are of class `GunnsFluidConductor` (core/GunnsFluidConductor.cpp):
the orchestrator's calls of `computeFlows`, `transportFlows` and `integrateFlows`, applied to the nodes.

Simplifications, besides those of `Verif.Fluid.Node` and `Verif.Flow.Orchestrator`:
* conductors have no internal fluid (`mInternalFluid` is only created by derived classes);
* volumetric flow rate and power are left out;
* the orchestrator's decisions depend on port directions, node maps and overflow flags only, all known once
  flows are computed; so its log of calls is taken first, and then executed.
-/

namespace Gunns.Fluid
open Gunns.Flow

variable {K : Type _} [Field K] [LinearOrder K] [IsStrictOrderedRing K]

/-- A conductor: `mNodeMap[0]`, `mNodeMap[1]`, `mPotentialVector` and `mAdmittanceMatrix[0]`. -/
structure FLink (K : Type _) where
  node0 : Nat
  node1 : Nat
  p0 : K
  p1 : K
  admittance : K

/-- `m100EpsilonLimit` (core/GunnsBasicLink.cpp:43). -/
def limit100 : K := 100 * dblEps

/-- `computeFlux` (core/GunnsFluidConductor.cpp:407-417, `getDeltaPotential` core/GunnsBasicLink.cpp:625-635). -/
def FLink.flux (c : FLink K) : K :=
  if |c.p0 - c.p1| < max c.p0 c.p1 * limit100 then 0 else (c.p0 - c.p1) * c.admittance

/-- Links and nodes; the ground node has number `nodes`. -/
structure FluidNet (K : Type _) where
  links : Nat
  nodes : Nat
  link : Nat → FLink K

/-- Replaces one node. -/
def upd (ns : Nat → FNode K) (n : Nat) (f : FNode K → FNode K) : Nat → FNode K :=
  fun k => if k = n then f (ns n) else ns k

/-- Port directions as set by `computeFlows` (core/GunnsFluidConductor.cpp:325-336). -/
def FLink.dir (c : FLink K) (p : Nat) : Dir :=
  if dblEps < c.flux then (if p = 0 then .source else .sink)
  else if c.flux < -dblEps then (if p = 0 then .sink else .source)
  else .none

/-- `computeFlows` (core/GunnsFluidConductor.cpp:317-337). -/
def computeFlows (c : FLink K) (ns : Nat → FNode K) : Nat → FNode K :=
  if dblEps < c.flux then upd ns c.node0 (scheduleOutflux c.flux)
  else if c.flux < -dblEps then upd ns c.node1 (scheduleOutflux (-c.flux))
  else ns

/-- The node at the port that `determineSourcePort(flow, 0, 1)` returns (core/GunnsFluidLink.cpp:370-382). -/
def sourceNode (ground : Nat) (c : FLink K) (flow : K) : Nat :=
  if (flow < 0 ∧ c.node1 ≠ ground) ∨ (0 < flow ∧ c.node0 = ground) then c.node1 else c.node0

/-- `transportFlows` (core/GunnsFluidConductor.cpp:344-401) with `transportFluid(false)`
(core/GunnsFluidLink.cpp:202-256, the part without internal fluid). -/
def transportFlows (th : Thermo K) (ground : Nat) (c : FLink K) (ns : Nat → FNode K) : Nat → FNode K :=
  let rate := c.flux * (ns (sourceNode ground c c.flux)).outflow.mweight
  if limit100 < rate then
    let ns := upd ns c.node0 (collectOutflux rate)
    upd ns c.node1 (collectInflux th rate (ns (sourceNode ground c rate)).outflow)
  else if rate < -limit100 then
    let ns := upd ns c.node1 (collectOutflux (-rate))
    upd ns c.node0 (collectInflux th (-rate) (ns (sourceNode ground c rate)).outflow)
  else ns

/-- A call of the orchestrator. -/
def exec (th : Thermo K) (dt : K) (fn : FluidNet K) (ns : Nat → FNode K) : Event → Res (Nat → FNode K)
  | .compute l => .ok (computeFlows (fn.link l) ns)
  | .transport l _ => .ok (transportFlows th fn.nodes (fn.link l) ns)
  | .integrate n =>
    match integrateFlows th dt (ns n) with
    | .ok r => .ok (upd ns n (fun _ => r))
    | .thrown r => .thrown (upd ns n (fun _ => r))

/-- Calls one after the other; an exception ends the update. -/
def execAll (th : Thermo K) (dt : K) (fn : FluidNet K) : List Event → (Nat → FNode K) → Res (Nat → FNode K)
  | [], ns => .ok ns
  | e :: es, ns =>
    match exec th dt fn ns e with
    | .ok ns => execAll th dt fn es ns
    | .thrown ns => .thrown ns

/-- What the orchestrator sees, once flows are computed (`ns` are the nodes then). -/
def FluidNet.view (fn : FluidNet K) (dt : K) (ns : Nat → FNode K) : Net where
  links := fn.links
  nodes := fn.nodes
  ports := fun _ => 2
  node := fun l p => if p = 0 then (fn.link l).node0 else (fn.link l).node1
  dir := fun l p => (fn.link l).dir p
  over := fun n => isOverflowing dt (ns n)

/-- The nodes after all links have computed their flows (core/GunnsFluidFlowOrchestrator.cpp:102-105). -/
def computeAll (fn : FluidNet K) (ns : Nat → FNode K) : Nat → FNode K :=
  loop (fun l ns => computeFlows (fn.link l) ns) fn.links ns

/-- `resetFlows` of all nodes, ground included (core/Gunns.cpp:751-755). -/
def resetAll (ns : Nat → FNode K) : Nat → Nat → Res (Nat → FNode K)
  | _, 0 => .ok ns
  | n, k + 1 =>
    match resetFlows (ns n) with
    | .thrown s => .thrown (upd ns n (fun _ => s))
    | .ok s => resetAll (upd ns n (fun _ => s)) (n + 1) k

/-- The flow part of a step: `resetFlows` of all nodes and the orchestrator's `update`
(core/Gunns.cpp:751-755 and 778, core/GunnsFluidFlowOrchestrator.cpp:98-151). `none`: the orchestrator does not
end or fails. -/
def fluidStep (th : Thermo K) (dt : K) (fn : FluidNet K) (ns : Nat → FNode K) : Option (Res (Nat → FNode K)) :=
  match resetAll ns 0 (fn.nodes + 1) with
  | .thrown ns => some (.thrown ns)
  | .ok ns =>
    match Flow.update (fn.view dt (computeAll fn ns)) (2 * fn.links + 1) with
    | .done s => some (execAll th dt fn s.log ns)
    | _ => none

end Gunns.Fluid
