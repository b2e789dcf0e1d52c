import Verif.Base.Const
import Verif.Math.Interp

/-!
# The balanced pressure reducing valve

`aspects/fluid/conductor/GunnsFluidBalancedPrv`.  Doubles are an ordered field.  The potentials of the ports, before a step and after the solution, and
the molecular weight of the fluid of the inlet node are inputs; the volume flow and the power are not followed.
-/

namespace Gunns.Prv

open Gunns.Interp

variable {K : Type*} [Field K] [LinearOrder K] [IsStrictOrderedRing K]

/-- The link, GunnsFluidBalancedPrv.hh:155-170. -/
structure Valve (K : Type*) where
  /-- `mPressureSetpoint` -/
  setpoint : K
  /-- `mExitPressureDroop` -/
  droop : K
  /-- `mMalfPressureBiasFlag`, `mMalfPressureBiasValue` -/
  bias : Option K
  /-- `mMalfBlockageFlag`, `mMalfBlockageValue` -/
  block : Option K
  /-- `mBackPressureCutoff` -/
  cutoff : Bool
  /-- `mRegulatedPressure` -/
  reg : K
  /-- `mInletConductance` -/
  gi : K
  /-- `mExitConductance` -/
  ge : K
  /-- `mInletMassBuffer` -/
  buffer : K
  /-- `mAdmittanceMatrix[0]`, `mAdmittanceMatrix[4]`; the others are zero -/
  a0 : K
  a4 : K
  /-- `mSourceVector[1]`; the others are zero -/
  src1 : K
  /-- `mAdmittanceUpdate` -/
  update : Bool
  /-- `mInletFlux` -/
  inletFlux : K
  /-- `mFlux` -/
  flux : K
  /-- `mInletFlowRate` -/
  inletRate : K
  /-- `mFlowRate` -/
  rate : K

/-- `mConductanceLimit`, core/GunnsBasicLink.cpp. -/
def condLimit : K := 10 ^ 15

/-- The back-pressure latch in `step`, GunnsFluidBalancedPrv.cpp:226-230. -/
def latch (p0 p1 : K) (s : Valve K) : Bool := if p0 < p1 then true else if p1 < s.setpoint then false else s.cutoff

/-- `mRegulatedPressure` in `step`, GunnsFluidBalancedPrv.cpp:233-237. -/
def regulated (p0 p2 : K) (s : Valve K) : K := min (s.setpoint + p2 + s.bias.getD 0) p0

/-- `mExitConductance` in `step`, GunnsFluidBalancedPrv.cpp:241-249. -/
def exitG (cut : Bool) (w : K) (s : Valve K) : K :=
  if cut = true ∨ w < fltEps then 0
  else
    let g := 1 / w / limitRange fltEps s.droop (1 / fltEps)
    match s.block with
    | some b => g * (1 - b)
    | none => g

/-- `mInletConductance` in `step`, GunnsFluidBalancedPrv.cpp:253-261. -/
def inletG (dt p0 w : K) (s : Valve K) : K :=
  limitRange 0 (if dt < dblEps ∨ w < fltEps ∨ p0 < dblEps then 0 else 1 / 5 * s.buffer / dt / w / p0) condLimit

/-- `step` with `buildAdmittanceMatrix` and `buildSourceVector`, GunnsFluidBalancedPrv.cpp:220-298. -/
def step (dt p0 p1 p2 w : K) (s : Valve K) : Valve K :=
  let cut := latch p0 p1 s
  let reg := regulated p0 p2 s
  let ge := exitG cut w s
  let gi := inletG dt p0 w s
  { s with
    cutoff := cut
    reg := reg
    ge := ge
    gi := gi
    a0 := gi
    a4 := ge
    src1 := reg * ge
    update := decide (s.a0 ≠ gi ∨ s.a4 ≠ ge) }

/-- `computeFlows`, GunnsFluidBalancedPrv.cpp:305-325. -/
def flows (q0 q1 : K) (s : Valve K) : Valve K :=
  { s with
    inletFlux := max 0 (q0 * s.a0)
    flux := max 0 (-q1 * s.a4 + s.src1) }

/-- `transportFlows`, GunnsFluidBalancedPrv.cpp:332-364. -/
def transport (dt w : K) (s : Valve K) : Valve K :=
  let i := w * s.inletFlux
  let e := w * s.flux
  let b := s.buffer + (e - i) * dt
  { s with
    inletRate := i
    rate := e
    buffer := if b < dblEps then 0 else b }

/-- What the node of the inlet loses in `transportFlows`, GunnsFluidBalancedPrv.cpp:352-354. -/
def taken (s : Valve K) : K := if 100 * dblEps < s.inletRate then s.inletRate else 0

/-- What the node of the exit gains, GunnsFluidBalancedPrv.cpp:355-357. -/
def given (s : Valve K) : K := if 100 * dblEps < s.rate then s.rate else 0

/-- One pass: the potentials before it and those of its solution. -/
structure Pass (K : Type*) where
  dt : K
  p0 : K
  p1 : K
  p2 : K
  w : K
  q0 : K
  q1 : K

/-- A pass of the network over the link. -/
def pass (s : Valve K) (x : Pass K) : Valve K := transport x.dt x.w (flows x.q0 x.q1 (step x.dt x.p0 x.p1 x.p2 x.w s))

/-- The passes `0, …, n - 1`. -/
def run (x : ℕ → Pass K) (s : Valve K) : ℕ → Valve K
  | 0 => s
  | n + 1 => pass (run x s n) (x n)

end Gunns.Prv
