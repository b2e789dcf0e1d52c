import Verif.Fluid.Conductivity

/-!
# Flow controllers

Model of `GunnsBasicFlowController` (core/GunnsBasicFlowController.cpp) and `GunnsFluidFlowController`
(core/GunnsFluidFlowController.cpp): conductors that choose their conductivity so that a commanded flow goes through.

Simplifications: doubles are elements of an ordered field, of the real numbers for the fluid controller.  The conductance of a
fluid controller from its conductivity is `computeAdmittance` of Verif/Fluid/Conductivity.lean.  Tuning and the commands to
change ports are left out.
-/

namespace Gunns.FlowCtl

open Gunns.Interp (limitRange)
open Gunns.FluidValve (Fl predictConductivity)

section basic

variable {K : Type*} [Field K] [LinearOrder K] [IsStrictOrderedRing K]

/-- A basic flow controller, core/GunnsBasicFlowController.hh:117-137. -/
structure Basic (K : Type*) where
  /-- `mDefaultConductivity` -/
  maxG : K
  /-- `mFluxCommand` -/
  command : K
  /-- `mMalfFluxValue` if `mMalfFluxFlag` -/
  malf : Option K
  /-- `mEnableReverseControl` -/
  reverse : Bool
  /-- `mMalfBlockageValue` if `mMalfBlockageFlag` -/
  block : Option K

/-- `updateState`, core/GunnsBasicFlowController.cpp:206-223: the effective conductivity. -/
def Basic.effective (b : Basic K) (p0 p1 : K) : K :=
  if p0 < p1 ∧ b.reverse = false then 0
  else min b.maxG (|b.malf.getD b.command| / max dblEps |p0 - p1|)

/-- `GunnsBasicConductor::step`, core/GunnsBasicConductor.cpp:196-215: the conductance. -/
def Basic.conductance (b : Basic K) (p0 p1 : K) : K :=
  limitRange 0 (match b.block with
    | some v => b.effective p0 p1 * (1 - v)
    | none => b.effective p0 p1) (10 ^ 15)

/-- `GunnsBasicConductor::computeFlux`, core/GunnsBasicConductor.cpp:249-259, with the conductance of the last step. -/
def flux (g p0 p1 : K) : K :=
  if |p0 - p1| < max p0 p1 * (100 * dblEps) then 0 else (p0 - p1) * g

end basic

/-- A fluid flow controller, core/GunnsFluidFlowController.hh:124-139. -/
structure Ctl where
  /-- `mMaxConductivity` -/
  maxG : ℝ
  /-- `mFlowRateCommand` -/
  command : ℝ
  /-- `mMalfFlowRateValue` if `mMalfFlowRateFlag` -/
  malf : Option ℝ
  /-- `mFilterProportionalGain` -/
  gain : ℝ
  /-- `mEnableReverseControl` -/
  reverse : Bool
  /-- `mMinLinearizationPotential` -/
  minLin : ℝ
  /-- `mLastConductivity`, which is `mEffectiveConductivity` after `updateState` -/
  last : ℝ

/-- What a controller finds in one pass: the contents of its nodes and the potentials. -/
structure Pass where
  /-- content of node 0 -/
  f0 : Fl
  /-- content of node 1 -/
  f1 : Fl
  /-- `mPotentialVector[0]` -/
  p0 : ℝ
  /-- `mPotentialVector[1]` -/
  p1 : ℝ

/-- The conductivity before the filter, core/GunnsFluidFlowController.cpp:213-230; the exponent of `predictConductivity` is
its default 0.5. -/
noncomputable def Ctl.target (c : Ctl) (q : Pass) : ℝ :=
  if q.p0 < q.p1 ∧ c.reverse = false then 0
  else min c.maxG (predictConductivity (c.malf.getD c.command) c.minLin q.f0 q.f1 (1 / 2))

/-- The filtered conductivity, core/GunnsFluidFlowController.cpp:234-235. -/
noncomputable def Ctl.filtered (c : Ctl) (q : Pass) : ℝ :=
  c.last + limitRange 0 c.gain 1 * (c.target q - c.last)

/-- `updateState`, core/GunnsFluidFlowController.cpp:211-240. -/
noncomputable def Ctl.update (c : Ctl) (q : Pass) : Ctl :=
  { c with
    last := if c.filtered q < dblEps then 0 else c.filtered q }

/-- `initialize`, core/GunnsFluidFlowController.cpp:157-176: the conductivity starts fully open
(core/GunnsFluidConductor.cpp:169). -/
noncomputable def Ctl.start (c : Ctl) : Ctl :=
  { c with
    last := c.maxG }

/-- `restartModel`, core/GunnsFluidFlowController.cpp:196-203. -/
noncomputable def Ctl.restart (c : Ctl) : Ctl :=
  { c with
    last := 0 }

/-- Any number of passes. -/
noncomputable def Ctl.run (c : Ctl) (q : ℕ → Pass) : ℕ → Ctl
  | 0 => c
  | n + 1 => (c.run q n).update (q n)

end Gunns.FlowCtl
