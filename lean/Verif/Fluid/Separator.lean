import Verif.Fluid.NodeSpec
import Verif.Fluid.Network

/-!
# The multi-fluid separator

`GunnsFluidMultiSeparator` (aspects/fluid/source/GunnsFluidMultiSeparator.cpp) takes constituents out of the fluid that
flows from port 0 to port 1 or back, and gives each of them to a port of its own one step later.

Left out: trace compounds, the flow demand malfunctions, user port commands, the admittance
(`linearizeConductance`), names, and the phases of fluids. `std::fabs` and `std::max` are exact.
-/

namespace Gunns.Fluid

variable {K : Type _} [Field K] [LinearOrder K] [IsStrictOrderedRing K]

/-- Attributes of `GunnsFluidMultiSeparator` (aspects/fluid/source/GunnsFluidMultiSeparator.hh), with
`mSourceVector` and `mFlux` of its base classes. -/
structure Separator (K : Type _) where
  /-- `mNumPorts` -/
  ports : Nat
  /-- `mNumSepTypes` -/
  types : Nat
  /-- `mSepIndex` -/
  index : Nat → Nat
  /-- `mSepPort` -/
  port : Nat → Nat
  /-- `mSepFraction` -/
  fraction : Nat → K
  /-- `mSepBufferThru` -/
  thru : Nat → K
  /-- `mSepBufferExit` -/
  exit : Nat → K
  /-- `mSepFluid` -/
  fluid : Nat → Poly K
  /-- `mInternalFluid` -/
  internal : Poly K
  /-- `mSourceVector` -/
  source : Nat → K
  /-- `mFlux` -/
  flux : K

/-- The checks of `validate` and `validateSep` (GunnsFluidMultiSeparator.cpp:274-360) on the numbers of ports and types,
the ports assigned and the fractions, without trace compounds; `n` constituents are in the network. -/
def sepAccepted (n ports : Nat) (index port : List Nat) (fraction : List K) : Bool :=
  decide (3 ≤ ports) && decide (1 ≤ index.length) && decide (index.length = port.length) &&
    decide (index.length = fraction.length) && decide index.Nodup &&
    port.all (fun p => decide (2 ≤ p) && decide (p ≤ ports - 1)) && index.all (fun i => decide (i < n)) &&
    fraction.all (fun f => decide (0 ≤ f) && decide (f ≤ 1))

/-- The part of `step` about the sources (GunnsFluidMultiSeparator.cpp:571-581). -/
def stepSep (p0 p1 : K) (s : Separator K) : Separator K :=
  loop (fun i (t : Separator K) =>
    let v := if p1 ≤ p0 then Function.update t.source 1 (t.source 1 - t.thru i)
      else Function.update t.source 0 (t.source 0 - t.thru i)
    let e := Function.update t.exit i (t.thru i)
    { t with
      exit := e
      source := Function.update v (t.port i) (e i) }) s.types
    { s with source := Function.update (Function.update s.source 0 0) 1 0 }

/-- `determineSourcePort(mFlux, 0, 1)` (core/GunnsFluidLink.cpp:370-382); is the node at the port the ground node? -/
def upstream (ground0 ground1 : Bool) (flux : K) : Nat :=
  if (flux < 0 ∧ ground1 = false) ∨ (0 < flux ∧ ground0 = true) then 1 else 0

/-- The part of `computeFlows` about what is separated (GunnsFluidMultiSeparator.cpp:639-641); `x` are the mole fractions
of the fluid upstream. -/
def computeSep (flux : K) (x : Nat → K) (s : Separator K) : Separator K :=
  loop (fun i (t : Separator K) => { t with
    thru := Function.update t.thru i (t.fraction i * |t.flux| * x (t.index i)) }) s.types { s with flux := flux }

/-- What `transportFlows` does: the calls of nodes it makes, by port. -/
inductive SepOutcome (K : Type _)
  | done (calls : List (Nat × Collect K)) (s : Separator K)
  /-- an exception of `PolyFluid` -/
  | thrown
  /-- reads beyond the end of `mSepFluid` -/
  | undefined

/-- The flows to the exits (GunnsFluidMultiSeparator.cpp:686-692). -/
def exitCalls (th : Thermo K) (temperature : K) (s : Separator K) : List (Nat × Collect K) :=
  loop (fun k calls =>
    let f := setTemperature th temperature (s.fluid k)
    let mdot := s.exit k * f.mweight
    if dblEps < mdot then calls ++ [(k + 2, .inflow f mdot)] else calls) (s.ports - 2) []

/-- What is left of the flow (GunnsFluidMultiSeparator.cpp:719-728). -/
def exitFlux (s : Separator K) : K := loop (fun i e => e - s.thru i) s.types |s.flux|

/-- Moles of the constituents that are left (GunnsFluidMultiSeparator.cpp:721-728). -/
def leftMoles (internal : Poly K) (s : Separator K) : Nat → K :=
  loop (fun i (w : Nat → K) => Function.update w (s.index i) (w (s.index i) - s.thru i)) s.types
    (fun i => |s.flux| * (internal.parts i).moleFraction)

/-- The internal fluid once the separated fluids are taken out (GunnsFluidMultiSeparator.cpp:720-737). -/
def depart (th : Thermo K) (temperature : K) (internal : Poly K) (s : Separator K) : Res (Poly K) :=
  if 0 < s.types ∧ dblEps < exitFlux s then
    match setMoleAndMoleFractions (exitFlux s) (fun i => leftMoles internal s i / exitFlux s) internal with
    | .ok q => .ok (setTemperature th temperature q)
    | .thrown q => .thrown q
  else .ok internal

/-- `transportFlows` (GunnsFluidMultiSeparator.cpp:678-746); `outflow` is that of the node upstream, at port `up`. -/
def transportSep (th : Thermo K) (up : Nat) (outflow : Poly K) (s : Separator K) : SepOutcome K :=
  if s.types < s.ports - 2 then .undefined
  else
    let exits := exitCalls th outflow.temperature s
    let heated := fun k => if k < s.ports - 2 then setTemperature th outflow.temperature (s.fluid k) else s.fluid k
    let s1 := { s with fluid := heated }
    if dblEps < |s.flux| then
      match setState outflow s.internal with
      | .thrown _ => .thrown
      | .ok q =>
        match depart th outflow.temperature q s with
        | .thrown _ => .thrown
        | .ok r => .done (exits ++ [(up, .outflux |s.flux * outflow.mweight|),
            (1 - up, .inflow r (exitFlux s * r.mweight))]) { s1 with internal := r }
    else .done exits s1

end Gunns.Fluid
