import Verif.Link.Elements

/-!
# The constant power load

`aspects/electrical/ConstantPowerLoad/EpsConstantPowerLoad` on `core/GunnsBasicConductor`.  Doubles are elements of an ordered field.
-/

namespace Gunns.PowLoad

open Gunns.Elements (limitRange conductanceLimit systemConductance eps100)

variable {K : Type _} [Field K] [LinearOrder K]

/-- The settings: `mDefaultConductivity`, `mMinimumVoltageLimit`, `mBiasPowerLoadValue` and the blockage malfunction with its value. -/
structure Cfg (K : Type _) where
  default : K
  least : K
  bias : K
  block : Option K

/-- The state: `mDesiredPower`, `mEffectiveConductivity`, `mSystemConductance` (which is the first entry of the matrix after a step), `mFlux`, `mPower` and
`mPowerDraw`. -/
structure State (K : Type _) where
  desired : K
  eff : K
  sys : K
  flux : K
  power : K
  draw : K

/-- `validate`, EpsConstantPowerLoad.cpp:157-170, with that of the conductor, core/GunnsBasicConductor.cpp:169-176. -/
def Valid (c : Cfg K) (s : State K) : Prop := 0 ≤ s.desired ∧ 0 ≤ c.least ∧ 0 ≤ c.default

/-- `updateEffectiveConductivity`, EpsConstantPowerLoad.cpp:234-243. -/
def update (c : Cfg K) (v : K) (s : State K) : State K :=
  { s with
    eff := if 0 ≤ v then
        let l := max v (max (99 / 100 * c.least) dblEps)
        limitRange 0 ((s.desired + c.bias) / (l * l)) conductanceLimit
      else 0 }

/-- `step`, core/GunnsBasicConductor.cpp:196-215, with `updateState`, EpsConstantPowerLoad.cpp:187-192. -/
def step (c : Cfg K) (p0 p1 : K) (s : State K) : State K :=
  let s := { s with eff := c.default }
  let s := update c (p0 - p1) s
  let s := { s with draw := -1 * s.power }
  { s with sys := systemConductance s.eff c.block }

/-- `computeFlows`, core/GunnsBasicConductor.cpp:237-259, with `computePower`, core/GunnsBasicLink.hh:560-563. -/
def flows (p0 p1 : K) (s : State K) : State K :=
  let f := if |p0 - p1| < max p0 p1 * eps100 then 0 else (p0 - p1) * s.sys
  { s with
    flux := f
    power := -f * (p0 - p1) }

/-- `minorStep`, EpsConstantPowerLoad.cpp:199-203. -/
def minorStep (c : Cfg K) (p0 p1 : K) (s : State K) : State K := step c p0 p1 (flows p0 p1 s)

/-- `setPowerAndNominalPotential`, EpsConstantPowerLoad.cpp:214-218. -/
def setPower (c : Cfg K) (power v : K) (s : State K) : State K := update c v { s with desired := power }

end Gunns.PowLoad
