import Verif.Math.Interp
import Mathlib.Analysis.SpecialFunctions.Pow.Real
import Mathlib.Analysis.SpecialFunctions.Exp

/-!
# Heat of vaporization of the defined fluids

`/repo/ms-utils/properties/FluidHvapFit.cpp` and `.hh`, `math/approximation/LinearFit.hh:96-99`,
`FluidProperties.hh:922-925`, and the coefficients in `FluidProperties.cpp:389-830`.  Doubles are real
numbers, `exp` and `pow` the exact functions.
-/

namespace Gunns.HeatOfVap

open Gunns.Interp (limitRange)

/-- `FluidHvapFit::evaluate`, FluidHvapFit.hh:78-81; `none` where `pow` has no finite result for a
power that is not whole: a negative base, or the base zero with a negative power. -/
noncomputable def evaluate (a alpha beta x : ℝ) : Option ℝ :=
  if 1 - x < 0 ∨ (1 - x = 0 ∧ beta < 0) then none
  else some (a * Real.exp (-alpha * x) * (1 - x) ^ beta)

/-- `getHeatOfVaporization`, FluidProperties.hh:922-925, of a fluid with a `FluidHvapFit` between
`minX` and `maxX`. -/
noncomputable def heat (a alpha beta minX maxX tc t : ℝ) : Option ℝ :=
  evaluate a alpha beta (limitRange minX (t / tc) maxX)

/-- `getHeatOfVaporization`, FluidProperties.hh:922-925, of a fluid with a `LinearFit` between `minX`
and `maxX`, LinearFit.hh:96-99. -/
noncomputable def heatLinear (a b minX maxX tc t : ℝ) : ℝ := a + b * limitRange minX (t / tc) maxX

/-- A row of the fluids with a `FluidHvapFit`: name, coefficients, the temperature the curve starts
at, and the critical temperature.  The last argument of the fit is 1 for all. -/
structure Row where
  name : String
  a : ℚ
  alpha : ℚ
  beta : ℚ
  tmin : ℚ
  tc : ℚ

/-- The fluids with a `FluidHvapFit`, FluidProperties.cpp:389-830. -/
def table : List Row := [
  ⟨"CO", 282.398, (-0.191), 0.409709, 68.16, 132.86⟩,
  ⟨"CO2", 573.863, (-0.014), 0.404154, 100.0, 304.128⟩,
  ⟨"H2O", 2899.80, (-0.178), 0.406871, 100.0, 647.096⟩,
  ⟨"N2", 254.280, (-0.245), 0.415032, 64.0, 126.192⟩,
  ⟨"O2", 268.086, (-0.217), 0.405495, 54.5, 154.581⟩,
  ⟨"NH3", 1795.73, (-0.202), 0.437261, 100.0, 405.4⟩,
  ⟨"H2", 402.392, (-0.893), 0.468214, 13.957, 33.145⟩,
  ⟨"CH4", 622.485, (-0.272), 0.408189, 91.0, 190.564⟩,
  ⟨"HCL", 816.0349, 0.4209399, 0.4209399, 100.0, 324.68⟩,
  ⟨"HCN", 1309.447, 0.09207613, 0.09207613, 100.0, 319.38⟩,
  ⟨"He", 19.800, (-0.927), 0.421274, 2.1768, 5.1953⟩,
  ⟨"Ar", 1607.565, 1.58156, 1.58156, 83.8058, 150.687⟩,
  ⟨"Xe", 115.869, (-0.281), 0.418031, 100.0, 289.733⟩,
  ⟨"HFE7000", 155.6048, 0.04794244, 0.04794244, 150.65, 438.15⟩,
  ⟨"HFE7100", 130.55269, 0.07991991, 0.07991991, 138.15, 468.45⟩,
  ⟨"PG30", 903.4089, 0.07395264, 0.07395264, 260.45, 640.5122⟩,
  ⟨"PG40", 903.4089, 0.07395264, 0.07395264, 251.56, 638.3176⟩,
  ⟨"PG50", 903.4089, 0.07395264, 0.07395264, 239.65, 636.123⟩,
  ⟨"GALDEN170", 85.343219, 0.132045, 0.132045, 176.15, 647.096⟩]

/-- A row of the fluids with a `LinearFit`: name, coefficients, the two limits, and the critical
temperature. -/
structure LinearRow where
  name : String
  a : ℚ
  b : ℚ
  minX : ℚ
  maxX : ℚ
  tc : ℚ

/-- The fluids with a `LinearFit`, FluidProperties.cpp:620, 627 and 634. -/
def linearTable : List LinearRow := [
  ⟨"N2O4", 1258.40074661114, (-2.91735422884232), 261.95, 431.35, 431.35⟩,
  ⟨"N2H4", 1859.5, (-1.644), 274.68, 387.37, 653.0⟩,
  ⟨"CH3N2H3", 1788.0772786368, (-3.05654235664393), 220.0, 585.0, 585.0⟩]

/-- The heat of vaporization of a fluid of the first table. -/
noncomputable def Row.heat (r : Row) (t : ℝ) : Option ℝ :=
  HeatOfVap.heat r.a r.alpha r.beta (r.tmin / r.tc) 1 r.tc t

/-- The heat of vaporization of a fluid of the second table. -/
noncomputable def LinearRow.heat (r : LinearRow) (t : ℝ) : ℝ :=
  heatLinear r.a r.b r.minX r.maxX r.tc t

end Gunns.HeatOfVap
