import Verif.Link.Elements

/-!
# The diode with a voltage drop

`aspects/electrical/Diode/GunnsElectRealDiode` on `core/GunnsBasicPotential`.  Doubles are elements of an ordered field.
-/

namespace Gunns.Diode

open Gunns.Elements (systemConductance)

variable {K : Type _} [Field K] [LinearOrder K]

/-- The settings: `mDefaultConductivity`, `mReverseConductivity`, `mVoltageDrop` and the blockage malfunction with its value. -/
structure Cfg (K : Type _) where
  forward : K
  backward : K
  junction : K
  block : Option K

/-- `validate`, GunnsElectRealDiode.cpp:158-171, with that of the conductor, core/GunnsBasicConductor.cpp:169-176. -/
def Cfg.Valid (c : Cfg K) : Prop := 0 ≤ c.backward ∧ 0 ≤ c.junction ∧ 0 ≤ c.forward

/-- `mEffectiveConductivity` and `mSourcePotential` of `updateState`, GunnsElectRealDiode.cpp:188-197; `r` is `mReverseBias`. -/
def state (c : Cfg K) (r : Bool) : K × K := if r then (c.backward, 0) else (c.forward, -c.junction)

/-- The first entries of the matrix and of the source after `step`, core/GunnsBasicConductor.cpp:196-230 and core/GunnsBasicPotential.hh:175-182. -/
def entries (c : Cfg K) (r : Bool) : K × K :=
  let g := systemConductance (state c r).1 c.block
  (g, -(state c r).2 * g)

/-- `computeFlux`, core/GunnsBasicPotential.hh:187-190. -/
def flux (c : Cfg K) (r : Bool) (v : K) : K := v * (entries c r).1 - (entries c r).2

/-- `updateBias`, GunnsElectRealDiode.hh:216-221: the new bias. -/
def bias (c : Cfg K) (v : K) : Bool := decide (v < c.junction)

/-- `confirmSolutionAcceptable`, GunnsElectRealDiode.cpp:220-229: whether the solution is accepted, and the bias after it. -/
def confirm (c : Cfg K) (r : Bool) (v : K) : Bool × Bool := (!(bias c v != r), bias c v)

end Gunns.Diode
