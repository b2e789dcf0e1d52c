import Verif.Math.Interp
import Verif.Base.Const
import Mathlib.Analysis.SpecialFunctions.Log.Base
import Mathlib.Analysis.SpecialFunctions.Pow.Real
import Mathlib.Analysis.Real.Sqrt

/-!
# Saturation pressure and temperature of the defined fluids

`/repo/ms-utils/properties/FluidTsatFit.cpp` and `.hh`, `FluidProperties.hh:886-908`, and the
coefficients in `FluidProperties.cpp:159-204` and `387-830`.  Doubles are real numbers, `log10`,
`pow(10, .)` and `sqrt` the exact functions.

Not modelled: pressure limits of zero or less; below zero `log10` gives no number and every check of
`init` passes.
-/

namespace Gunns.Saturation

open Gunns.Interp (limitRange)

/-- The coefficients of the two curves, the limits of their arguments (the inverse reduced
temperature from 1 to `maxX`, the pressure from `minP` to `maxP`) and the critical temperature. -/
structure Curve where
  a : ℝ
  b : ℝ
  c : ℝ
  maxX : ℝ
  minP : ℝ
  maxP : ℝ
  tc : ℝ

/-- The number under the root, `mB2 - mC4 * (mA - log10(x))`, FluidTsatFit.hh:94-97. -/
noncomputable def disc (f : Curve) (p : ℝ) : ℝ := f.b * f.b - 4 * f.c * (f.a - Real.logb 10 p)

/-- `FluidTsatFit::evaluate`, with the terms of `init`, FluidTsatFit.cpp:102-106. -/
noncomputable def evaluate (f : Curve) (p : ℝ) : ℝ := (-f.b - Real.sqrt (disc f p)) * (1 / 2 / f.c)

/-- What `init` accepts, FluidTsatFit.cpp:83-126, with the order of the limits checked by
TsApproximation. -/
def Accepts (f : Curve) : Prop :=
  f.minP < f.maxP ∧ ¬ |f.c| < dblEps ∧ ¬ disc f f.minP < 0 ∧ ¬ disc f f.maxP < 0 ∧
    ¬ evaluate f f.minP < dblEps ∧ ¬ evaluate f f.maxP < dblEps

/-- `getSaturationPressure`, FluidProperties.hh:886-889, with the quadratic fit and its limits. -/
noncomputable def pressure (f : Curve) (t : ℝ) : ℝ :=
  let x := limitRange 1 (f.tc / max t dblEps) f.maxX
  (10 : ℝ) ^ (f.a + (f.b + f.c * x) * x)

/-- `getSaturationTemperature`, FluidProperties.hh:904-908. -/
noncomputable def temperature (f : Curve) (p : ℝ) : ℝ :=
  f.tc / evaluate f (limitRange f.minP p f.maxP)

/-- One row of the table of fluids: name, the coefficients, critical temperature, the temperature
the pressure curve starts at, and the pressure limits of the temperature curve. -/
structure Row where
  name : String
  a : ℚ
  b : ℚ
  c : ℚ
  tc : ℚ
  tmin : ℚ
  minP : ℚ
  maxP : ℚ

/-- The curves of all the defined fluids that have them, FluidProperties.cpp:387-830, with the
critical temperatures of FluidProperties.cpp:159-204. -/
def table : List Row := [
  ⟨"CO", 5.904077, (-2.314267), (-0.05184318), 132.86, 68.16, 1.570513e1, 3.451170e3⟩,
  ⟨"CO2", 6.671213, (-2.778967), (-0.02691220), 304.128, 100.0, 9.347056e-3, 7.333882e3⟩,
  ⟨"H2O", 7.105911, (-2.543893), (-0.2302306), 647.096, 100.0, 1.009159e-19, 2.146776e4⟩,
  ⟨"N2", 5.891833, (-2.335710), (-0.03054780), 126.192, 64.0, 1.471071e1, 3.354095e3⟩,
  ⟨"O2", 5.923722, (-2.154806), (-0.07725064), 154.581, 54.5, 1.550494e-1, 4.916608e3⟩,
  ⟨"NH3", 6.686549, (-2.451487), (-0.1891818), 405.4, 100.0, 4.355480e-7, 1.111426e4⟩,
  ⟨"H2", 5.137677, (-2.211171), 0.1752336, 33.145, 13.957, 7.496468e0, 1.263978e3⟩,
  ⟨"CH4", 5.978649, (-2.316399), (-0.008641538), 190.564, 91.0, 1.230152e1, 4.504100e3⟩,
  ⟨"HCL", 6.423687, (-2.436504), (-0.07698240), 324.68, 100.0, 5.027122e-3, 8.132054e3⟩,
  ⟨"HCN", 6.665582, (-4.175167), (-0.1724629), 319.38, 100.0, 3.730347e-9, 2.079466e2⟩,
  ⟨"He", 4.055375, (-1.930662), 0.2191484, 5.1953, 2.1768, 4.964031e0, 2.207300e2⟩,
  ⟨"Ar", 5.79326396, (-2.0379426), (-0.0901245), 150.687, 83.8058, 68.7973, 4625.9⟩,
  ⟨"Xe", 6.141935, (-2.416296), 0.03483905, 289.733, 100.0, 2.711090e-1, 5.754884e3⟩,
  ⟨"N2O4", 8.949029, (-5.406766), 0.4546795, 431.35, 261.95, 18.996, 9929.85⟩,
  ⟨"N2H4", 6.968218448, (-2.586591091), (-0.211863158), 653.0, 274.68, 0.418, 14784.0⟩,
  ⟨"CH3N2H3", 6.263433, (-1.923808), (-0.434885), 585.0, 220.0, 0.011827, 8030.46⟩,
  ⟨"HFE7000", 3.560395, 2.010689, (-2.176239), 438.15, 150.65, 9.999151e-10, 2.482244e3⟩,
  ⟨"HFE7100", 6.741905, (-3.38726), 0.003905253, 468.45, 138.15, 1.99994e-5, 2.283231e3⟩,
  ⟨"PG30", 6.981063, (-2.499521), (-0.2438117), 640.5122, 260.45, 2.288534e-1, 1.728742e4⟩,
  ⟨"PG40", 6.943746, (-2.505542), (-0.240262), 638.3176, 251.56, 1.09513e-1, 1.577863e4⟩,
  ⟨"PG50", 6.734702, (-2.261483), (-0.3222344), 636.123, 239.65, 2.893852e-2, 1.415745e4⟩,
  ⟨"GALDEN170", 6.901611, (-2.958793), (-0.3139779), 647.096, 223.15, 4.801679e-5, 4.254419e3⟩]

/-- The curves of a row. -/
noncomputable def Row.curve (r : Row) : Curve :=
  ⟨r.a, r.b, r.c, r.tc / r.tmin, r.minP, r.maxP, r.tc⟩

end Gunns.Saturation
