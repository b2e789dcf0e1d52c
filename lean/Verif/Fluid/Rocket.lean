import Verif.Base.Const
import Verif.Math.Interp
import Mathlib.Analysis.SpecialFunctions.Pow.Real

/-!
# The simple rocket: the search for the exit Mach number, the burning and the thrust

`aspects/fluid/conductor/GunnsFluidSimpleRocket`.  Doubles are an ordered field, and the reals for the powers of the nozzle.  The combustion model
and the mixtures are not followed: what is read from them is an input.
-/

namespace Gunns.Rocket

open Gunns.Interp

variable {K : Type*} [Field K] [LinearOrder K] [IsStrictOrderedRing K]

/-- `mMachTolerance`, GunnsFluidSimpleRocket.cpp:23. -/
def tol : K := 1 / 10000

/-- The variables of the loop in `updateExitMach`, GunnsFluidSimpleRocket.cpp:557-559. -/
structure Search (K : Type*) where
  prev : K
  mach : K
  /-- the loop has been left by `break` -/
  done : Bool

/-- The body of the loop, GunnsFluidSimpleRocket.cpp:562-572; `r` is the area ratio as a function of the Mach number. -/
def body (r : K → K) (area : K) (s : Search K) : Search K :=
  if s.done then s
  else
    let delta := 1 / 2 * |s.mach - s.prev|
    if delta < tol then { s with done := true }
    else if area < r s.mach then ⟨s.mach, s.mach - delta, false⟩
    else ⟨s.mach, s.mach + delta, false⟩

/-- `updateExitMach`, GunnsFluidSimpleRocket.cpp:552-575. -/
def exitMach (r : K → K) (area : K) : K := ((body r area)^[30] ⟨20, 10, false⟩).mach

/-- The area ratio of a nozzle, GunnsFluidSimpleRocket.cpp:554-562. -/
noncomputable def ratio (g m : ℝ) : ℝ := 1 / m * (2 / (g + 1) + m * m / ((g + 1) / (g - 1))) ^ ((g + 1) / (g - 1) / 2)

/-- The state of the burning, GunnsFluidSimpleRocket.hh. -/
structure Burn where
  /-- `mCombustion` -/
  on : Bool
  /-- `mCombustionCount` -/
  count : ℕ

/-- What a pass reads: `mIgnition`, `mFlowRate`, and whether the combustion model, if there is one, finds no rise of the temperature. -/
structure Feed (K : Type*) where
  ignition : Bool
  rate : K
  cold : Bool

/-- `updateCombustion`, GunnsFluidSimpleRocket.cpp:380-436. -/
def burn (needs : Bool) (b : Burn) (x : Feed K) : Burn :=
  let c := if needs then (if fltEps < x.rate then b.on || x.ignition else false) else decide (fltEps < x.rate)
  let c := if c && x.cold then false else c
  ⟨c, if c then b.count + 1 else 0⟩

/-- `updateConductance`, GunnsFluidSimpleRocket.cpp:583-614; `p0`, `p1` are the pressures of the nodes and `v0`, `v1` the potentials. -/
def conductance (mdot p0 p1 minDp w v0 v1 dflt limit : K) (count : ℕ) : K :=
  let p := max p0 (p1 + minDp)
  if dblEps < w ∧ v1 - fltEps < v0 then
    limitRange 0 ((if count = 1 then dflt else mdot / (p - p1)) / w) limit
  else 0

/-- `mSpecificImpulse` in `updateNozzle`, GunnsFluidSimpleRocket.cpp:506-534, and `mThrust` in `transportFlows`, GunnsFluidSimpleRocket.cpp:681. -/
def thrust (on : Bool) (tuning rate ue g0 : K) : K := tuning * rate * (if on then ue / g0 else 0) * g0

end Gunns.Rocket
