import Verif.Net.Assembly

/-!
# The basic two-port links and node flux bookkeeping

Models of `GunnsBasicConductor`, `GunnsBasicCapacitor`, `GunnsBasicSource`, `GunnsBasicPotential`,
`GunnsBasicFlowController` (without their port handling, which is in `Verif.Link.Ports`), of
`GunnsBasicNode`'s flux collection and of `GunnsBasicFlowOrchestrator::update`.

Doubles are elements of an ordered field.  `updateState` and `updateFlux` of the base classes are
empty; a derived class that changes the effective conductivity is covered by letting it be any
number.
-/

namespace Gunns.Elements

open Gunns

variable {K : Type _} [Field K] [LinearOrder K]

/-- The numbers a two-port link keeps, /repo/core/GunnsBasicLink.hh:276-302. -/
structure Two (K : Type _) where
  /-- `mAdmittanceMatrix` (4 terms) -/
  adm : Vect K
  /-- `mSourceVector` (2 terms) -/
  src : Vect K
  /-- `mPotentialVector` (2 terms) -/
  pot : Vect K
  /-- `mAdmittanceUpdate` -/
  update : Bool
  /-- `mPotentialDrop` -/
  drop : K
  /-- `mFlux` -/
  flux : K
  /-- `mPower` -/
  power : K

/-- State after `allocateMatrixAndVectors` and `initialize`, /repo/core/GunnsBasicLink.cpp:277-282,
338-345, 357-363. -/
def Two.zero : Two K := ⟨fun _ => 0, fun _ => 0, fun _ => 0, false, 0, 0, 0⟩

/-- `mConductanceLimit`, /repo/core/GunnsBasicLink.cpp:40. -/
def conductanceLimit : K := 10 ^ 15

/-- `m100EpsilonLimit`, /repo/core/GunnsBasicLink.cpp:43. -/
def eps100 : K := 100 * dblEps

/-- `MsMath::limitRange`, /repo/ms-utils/math/MsMath.hh:411-414. -/
def limitRange (lower x upper : K) : K := max (min x upper) lower

/-- Writing the 2x2 stamp when the first term changed: /repo/core/GunnsBasicConductor.cpp:220-230 and,
the same text, /repo/core/GunnsBasicCapacitor.cpp:268-274. -/
def stamp (g : K) (t : Two K) : Two K :=
  if |t.adm 0 - g| > 0 then
    let a := t.adm.set 0 g
    let a := a.set 1 (-a 0)
    let a := a.set 2 (-a 0)
    let a := a.set 3 (a 0)
    { t with
      adm := a
      update := true }
  else t

/-- `mSystemConductance` in `GunnsBasicConductor::step`, /repo/core/GunnsBasicConductor.cpp:209-213.
`eff` is the effective conductivity after `updateState`, `blk` the blockage if the malfunction is on. -/
def systemConductance (eff : K) (blk : Option K) : K :=
  let g := match blk with
    | none => eff
    | some v => eff * (1 - v)
  limitRange 0 g conductanceLimit

/-- `GunnsBasicConductor::step`, /repo/core/GunnsBasicConductor.cpp:196-215. -/
def conductorStep (eff : K) (blk : Option K) (t : Two K) : Two K := stamp (systemConductance eff blk) t

/-- `GunnsBasicFlowController::updateState`, /repo/core/GunnsBasicFlowController.cpp:206-223: the
effective conductivity.  `cmd` is the flux command or the malfunction value. -/
def controllerConductivity (default cmd : K) (reverse : Bool) (t : Two K) : K :=
  let dP := max dblEps |t.pot 0 - t.pot 1|
  let eff := min default (|cmd| / dP)
  if t.pot 1 > t.pot 0 ∧ reverse = false then 0 else eff

/-- `GunnsBasicLink::computePower`, /repo/core/GunnsBasicLink.hh:560-563. -/
def computePower (t : Two K) : Two K := { t with power := -t.flux * (t.pot 0 - t.pot 1) }

/-- `GunnsBasicConductor::computeFlux`, /repo/core/GunnsBasicConductor.cpp:249-259. -/
def conductorFlux (t : Two K) : Two K :=
  let hiP := max (t.pot 0) (t.pot 1)
  { t with flux := if |t.drop| < hiP * eps100 then 0 else t.drop * t.adm 0 }

/-- `GunnsBasicConductor::computeFlows` up to the transport,
/repo/core/GunnsBasicConductor.cpp:237-243. -/
def conductorFlows (t : Two K) : Two K :=
  computePower (conductorFlux { t with drop := t.pot 0 - t.pot 1 })

/-- `GunnsBasicCapacitor::buildCapacitance`, /repo/core/GunnsBasicCapacitor.cpp:252-279 (`step`,
200-216, without the capacitance edit). -/
def capacitorStep (cap dt : K) (t : Two K) : Two K :=
  let t := stamp (if dt < dblEps then cap / dblEps else cap / dt) t
  let s := t.src.set 0 ((t.pot 0 - t.pot 1) * t.adm 0)
  let s := s.set 1 (-s 0)
  { t with src := s }

/-- `computeFlux` of capacitors and potential sources, /repo/core/GunnsBasicCapacitor.hh:180-183,
/repo/core/GunnsBasicPotential.hh:187-190. -/
def sourcedFlux (t : Two K) : Two K := { t with flux := t.drop * t.adm 0 - t.src 0 }

/-- `computeFlows` of capacitors (/repo/core/GunnsBasicCapacitor.cpp:223-231) and potential sources
(inherited, /repo/core/GunnsBasicConductor.cpp:237-243), up to the transport. -/
def sourcedFlows (t : Two K) : Two K :=
  computePower (sourcedFlux { t with drop := t.pot 0 - t.pot 1 })

/-- `GunnsBasicPotential::step`, /repo/core/GunnsBasicPotential.cpp:183-187, with `buildPotential`,
/repo/core/GunnsBasicPotential.hh:175-182. -/
def potentialStep (eff : K) (blk : Option K) (rise : K) (t : Two K) : Two K :=
  let t := conductorStep eff blk t
  let s := t.src.set 0 (-rise * t.adm 0)
  let s := s.set 1 (-s 0)
  { t with src := s }

/-- `GunnsBasicSource::step`, /repo/core/GunnsBasicSource.cpp:181-195, with `buildSource`,
/repo/core/GunnsBasicSource.hh:183-187. -/
def sourceStep (demand : K) (blk : Option K) (t : Two K) : Two K :=
  let f := match blk with
    | none => demand
    | some v => demand * (1 - v)
  let s := t.src.set 0 (-f)
  let s := s.set 1 f
  { t with
    flux := f
    src := s }

/-- `GunnsBasicSource::computeFlows` up to the transport, /repo/core/GunnsBasicSource.cpp:200-205. -/
def sourceFlows (t : Two K) : Two K := computePower { t with drop := t.pot 0 - t.pot 1 }

/-! ## Node bookkeeping -/

/-- Flux terms of a `GunnsBasicNode`, /repo/core/GunnsBasicNode.hh. -/
structure NodeFlux (K : Type _) where
  /-- `mInfluxRate` -/
  influx : K
  /-- `mOutfluxRate` -/
  outflux : K
  /-- `mNetFlux` -/
  net : K
  /-- `mFluxThrough` -/
  through : K

/-- `GunnsBasicNode::collectInflux`, /repo/core/GunnsBasicNode.hh:609-612. -/
def collectInflux (f : K) (n : NodeFlux K) : NodeFlux K := { n with influx := n.influx + f }

/-- `GunnsBasicNode::collectOutflux`, /repo/core/GunnsBasicNode.hh:620-623. -/
def collectOutflux (f : K) (n : NodeFlux K) : NodeFlux K := { n with outflux := n.outflux + f }

/-- `GunnsBasicNode::resetFlows`, /repo/core/GunnsBasicNode.hh:628-633. -/
def resetFlows (n : NodeFlux K) : NodeFlux K :=
  { n with
    influx := 0
    outflux := 0 }

/-- `GunnsBasicNode::integrateFlows`, /repo/core/GunnsBasicNode.cpp:136-146. -/
def integrateFlows (n : NodeFlux K) : NodeFlux K :=
  { n with
    net := n.influx - n.outflux
    through := if n.influx < n.outflux then n.influx else n.outflux }

/-- Apply a node method to one node of the list. -/
def atNode (i : Nat) (f : NodeFlux K → NodeFlux K) (ns : Nat → NodeFlux K) : Nat → NodeFlux K :=
  fun k => if k = i then f (ns k) else ns k

/-- `GunnsBasicLink::transportFlux`, /repo/core/GunnsBasicLink.cpp:595-611, for valid ports: `a` and `b`
are the nodes of the from-port and the to-port. -/
def transportFlux (a b : Nat) (flux : K) (ns : Nat → NodeFlux K) : Nat → NodeFlux K :=
  if flux > 0 then atNode b (collectInflux flux) (atNode a (collectOutflux flux) ns)
  else if flux < 0 then atNode a (collectInflux (-flux)) (atNode b (collectOutflux (-flux)) ns)
  else ns

/-- A transport: from-node, to-node, flux. -/
structure Flow (K : Type _) where
  src : Nat
  dst : Nat
  flux : K

/-- The flux part of a major step: `resetFlows` on all nodes (/repo/core/Gunns.cpp:753-755), then
`GunnsBasicFlowOrchestrator::update` (/repo/core/GunnsBasicFlowOrchestrator.cpp:137-148): all links'
transports, last link first, then `integrateFlows` of all nodes but the ground node `N`. -/
def majorFluxes (N : Nat) (flows : List (Flow K)) (ns : Nat → NodeFlux K) : Nat → NodeFlux K :=
  let ns := loop (fun i ns => atNode i resetFlows ns) (N + 1) ns
  let ns := flows.reverse.foldl (fun ns f => transportFlux f.src f.dst f.flux ns) ns
  loop (fun i ns => atNode i integrateFlows ns) N ns

end Gunns.Elements
