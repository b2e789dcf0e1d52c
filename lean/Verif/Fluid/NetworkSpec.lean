import Verif.Fluid.Network
import Verif.Fluid.NetworkNode
import Verif.Flow.OrchestratorSpec

/-!
# Terms for flow updates of fluid networks
-/

namespace Gunns.Fluid
open Gunns.Flow

variable {K : Type _} [Field K] [LinearOrder K] [IsStrictOrderedRing K]

/-- The node that the flow of a conductor leaves. -/
def FLink.src (c : FLink K) : Nat := if 0 < c.flux then c.node0 else c.node1

/-- The node that the flow of a conductor enters. -/
def FLink.dst (c : FLink K) : Nat := if 0 < c.flux then c.node1 else c.node0

/-- The calls `computeFlows` makes of node `n`. -/
def computeCalls (c : FLink K) (n : Nat) : List (Collect K) :=
  if dblEps < c.flux then (if n = c.node0 then [.schedule c.flux] else [])
  else if c.flux < -dblEps then (if n = c.node1 then [.schedule (-c.flux)] else [])
  else []

/-- The calls `transportFlows` makes of node `n`. -/
def transportCalls (ground : Nat) (c : FLink K) (ns : Nat → FNode K) (n : Nat) : List (Collect K) :=
  let rate := c.flux * (ns (sourceNode ground c c.flux)).outflow.mweight
  let fluid := (ns (sourceNode ground c rate)).outflow
  if limit100 < rate then
    (if n = c.node0 then [.outflux rate] else []) ++ (if n = c.node1 then [.inflow fluid rate] else [])
  else if rate < -limit100 then
    (if n = c.node1 then [.outflux (-rate)] else []) ++ (if n = c.node0 then [.inflow fluid (-rate)] else [])
  else []

/-- The calls links make of node `n` when the orchestrator makes a call. -/
def callsOf (fn : FluidNet K) (ns : Nat → FNode K) (n : Nat) : Event → List (Collect K)
  | .compute l => computeCalls (fn.link l) n
  | .transport l _ => transportCalls fn.nodes (fn.link l) ns n
  | .integrate _ => []

/-- The calls links make of node `n` during the given calls of the orchestrator. -/
def called (th : Thermo K) (dt : K) (fn : FluidNet K) (n : Nat) : List Event → (Nat → FNode K) → List (Collect K)
  | [], _ => []
  | e :: es, ns => callsOf fn ns n e ++
      match exec th dt fn ns e with
      | .ok ns => called th dt fn n es ns
      | .thrown _ => []

/-- The calls before the integration of node `n`. -/
def before (n : Nat) (log : List Event) : List Event := log.takeWhile (fun e => decide (e ≠ .integrate n))

/-- Mass of constituent `i` per second and unit of flux in a fluid. -/
def partFlow (p : Poly K) (i : Nat) : K := p.mweight * (p.parts i).massFraction

end Gunns.Fluid
