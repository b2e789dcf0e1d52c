import Verif.Base.Const
import Mathlib.Algebra.BigOperators.Group.List.Basic
import Mathlib.Algebra.Order.Group.Abs

/-!
# The two ends of an interface between networks

`core/GunnsBasicExternalDemand` and `core/GunnsFluidExternalDemand` (the filters of `updateState`), `core/GunnsBasicExternalSupply` with
`ms-utils/software/SimBus/SimBusQutils`, and the flows of `core/GunnsFluidExternalSupply`.  Doubles are an ordered field.  The mixtures
are not followed: of a fluid only the molecular weight is an input.
-/

namespace Gunns.ExtIf

variable {K : Type*} [Field K] [LinearOrder K] [IsStrictOrderedRing K]

/-! ## The demand -/

/-- The filter of a demand, GunnsBasicExternalDemand.hh:152-158 and GunnsFluidExternalDemand.hh:165-172. -/
structure Filter (K : Type*) where
  /-- `mFilterMinConductivity` -/
  minG : K
  /-- `mFilterMinDeltaP` -/
  minDp : K
  /-- `mFilterCapacitanceGain` -/
  gain : K
  /-- `mAvgDemand` -/
  avgD : K
  /-- `mAvgSupplyP` -/
  avgP : K
  /-- `mAvgSupplyDeltaP` -/
  dp : K
  /-- `mEstimatedCapacitance` -/
  est : K
  /-- `mSupplyCapacitance`, of the fluid only -/
  supplyC : K
  /-- `mEffectiveConductivity` -/
  cond : K

/-- A value that is all but zero is made zero, as in GunnsBasicExternalDemand.cpp:223-225. -/
def snap (x : K) : K := if |x| < dblEps then 0 else x

/-- The new estimate, GunnsBasicExternalDemand.cpp:231-234. -/
def estimate (minDp gain est d dt dp : K) : K :=
  if minDp < |dp| then (1 - gain) * est + gain * (-d * dt / dp) else est

/-- `GunnsBasicExternalDemand::updateState`, GunnsBasicExternalDemand.cpp:217-243; `f` is `mFlux` and `p` is `mSourcePotential`. -/
def basic (dt f p : K) (s : Filter K) : Filter K :=
  let d := snap (1 / 2 * (s.avgD + f))
  let a := 1 / 2 * (s.avgP + p)
  let dp := -s.avgP + a
  let e := estimate s.minDp s.gain s.est d dt dp
  { s with
    avgD := d
    avgP := a
    dp := dp
    est := e
    cond := if dblEps < dt then max (e / dt) s.minG else s.minG }

/-- `GunnsFluidExternalDemand::updateState`, GunnsFluidExternalDemand.cpp:404-442. -/
def fluid (dt f p : K) (s : Filter K) : Filter K :=
  let d := snap (1 / 2 * (s.avgD + f))
  let a := 1 / 2 * (s.avgP + p)
  let dp := -s.avgP + a
  let e := if s.minDp < |dp| then snap (estimate s.minDp s.gain s.est d dt dp) else s.est
  { s with
    avgD := d
    avgP := snap a
    dp := dp
    est := e
    cond := if dblEps < dt then (if dblEps < s.supplyC then s.supplyC / dt else max (e / dt) s.minG) else s.minG }

/-- The passes `0, …, n - 1` of a basic demand with the fluxes `f` and the potentials `p`. -/
def run (dt : K) (f p : ℕ → K) (s : Filter K) : ℕ → Filter K
  | 0 => s
  | n + 1 => basic dt (f n) (p n) (run dt f p s n)

/-! ## The supply -/

/-- `SimBusQutils::getSum`, SimBusQutils.cpp:49-56. -/
def getSum (q : List K) : K := q.foldl (· + ·) 0

/-- `SimBusQutils::getAverage`, SimBusQutils.cpp:69-78; `none` is the exception. -/
def getAverage (q : List K) : Option K := if q.length < 1 then none else some (getSum q / q.length)

/-- `GunnsBasicExternalSupply::processInputs`, GunnsBasicExternalSupply.cpp:213-218: the new `mSourceFlux`. -/
def inputs (old : K) (q : List K) : K := if 0 < q.length then (getAverage q).getD old else old

/-- What the supply gives over its passes, each of the duration `dt` of its queue: the flux of the source times the time. -/
def given (dt : K) : K → List (List K) → K
  | _, [] => 0
  | old, q :: qs => inputs old q * (q.length * dt) + given dt (inputs old q) qs

/-- The flows of a fluid supply. -/
structure Flow (K : Type*) where
  /-- `mFlux`, molar -/
  flux : K
  /-- `mFlowRate`, mass -/
  rate : K

/-- The choice between the two demands in `GunnsFluidExternalSupply::step`, GunnsFluidExternalSupply.cpp:352-363; `wi` is the molecular weight
of the fluid of the demand and `wn` that of the node. -/
def choose (wi wn : K) (x : Flow K) : Flow K :=
  if x.flux < -dblEps then { x with rate := x.flux * wi }
  else if dblEps < x.flux then { x with rate := x.flux * wn }
  else if x.rate < -dblEps then { x with flux := x.rate / wi }
  else if dblEps < x.rate then { x with flux := x.rate / wn }
  else x

/-- `processInputs` and the flows in `step`, GunnsFluidExternalSupply.cpp:309-310 and 352-369. -/
def supply (wi wn demandFlux demandRate : K) : Flow K :=
  let y := choose wi wn ⟨demandFlux, demandRate⟩
  if |y.rate| < 100 * dblEps then ⟨0, 0⟩ else y

/-! ## Ports -/

/-- `GunnsBasicExternalSupply::checkSpecificPortRules`, GunnsBasicExternalSupply.cpp:184-201, and of the fluid. -/
def supplyPort (ground port node : ℕ) : Bool :=
  if port = 0 ∧ node = ground then false else if port = 1 ∧ node ≠ ground then false else true

/-- `GunnsBasicExternalDemand::checkSpecificPortRules`, GunnsBasicExternalDemand.cpp:256-273, and of the fluid. -/
def demandPort (ground port node : ℕ) : Bool :=
  if port = 1 ∧ node = ground then false else if port = 0 ∧ node ≠ ground then false else true

end Gunns.ExtIf
