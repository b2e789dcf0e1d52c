import Verif.Base.Loop
import Verif.Base.Const
import Verif.Math.Interp
import Mathlib.Analysis.SpecialFunctions.Pow.Real

/-!
# Diffusion and conduction through a hatch

`GunnsFluidUtils::computeGasDiffusion` and `computeConductiveHeatFlux`, and `GunnsFluidHatch` with the transport of the
diffusive flow by `GunnsFluidLink::transportFluid`.

Simplifications: doubles are real numbers. A fluid is what these functions read of it, with the mole fractions as a function
of the compound's index. The bulk flow of the hatch is that of a valve (Verif/Fluid/Conductivity.lean). Trace compounds are
left out.
-/

namespace Gunns.Hatch

open Gunns.Interp (limitRange)

/-- What the functions read of the outflow of a node. -/
structure Mix where
  /-- `getTemperature` -/
  t : ℝ
  /-- `getPressure` -/
  p : ℝ
  /-- `getDensity` -/
  density : ℝ
  /-- `getMWeight` -/
  mw : ℝ
  /-- `getMoleFraction` -/
  x : ℕ → ℝ
  /-- `getThermalConductivity` -/
  k : ℝ

/-- `LAMBDA_BASE`, core/GunnsFluidUtils.cpp:41-45. -/
noncomputable def lambdaBase : ℝ := 1.3806504e-23 / (1000 * 3.0e-19)

/-- `UNIV_GAS_CONST_SI`, ms-utils/math/UnitConversion.cpp:1225. -/
def gasConstant : ℝ := 8.314472

/-- The mean of two values at the distances `l0` and `l1`, as in core/GunnsFluidUtils.cpp:887-920. -/
noncomputable def mean (l0 l1 a b : ℝ) : ℝ := (a * l0 + b * l1) * (1 / (l0 + l1))

/-- `diffusivity`, core/GunnsFluidUtils.cpp:885-914. -/
noncomputable def diffusivity (l0 l1 : ℝ) (f0 f1 : Mix) : ℝ :=
  let lambda0 := f0.t / max f0.p fltEps
  let lambda1 := f1.t / max f1.p fltEps
  let lambda := lambdaBase * (lambda0 * l0 + lambda1 * l1) * (1 / (l0 + l1))
  let meanT := max dblEps (mean l0 l1 f0.t f1.t)
  let meanMW := max dblEps (mean l0 l1 f0.mw f1.mw)
  let meanVelocity := √(3000 * gasConstant * meanT / meanMW)
  lambda * meanVelocity / 3

/-- `meanMolarDensity`, core/GunnsFluidUtils.cpp:918-920. -/
noncomputable def meanMolar (l0 l1 : ℝ) (f0 f1 : Mix) : ℝ :=
  max dblEps (mean l0 l1 (f0.density / max dblEps f0.mw) (f1.density / max dblEps f1.mw))

/-- `diffusiveFlux` of a compound, core/GunnsFluidUtils.cpp:928-932. -/
noncomputable def flux (l0 l1 : ℝ) (f0 f1 : Mix) (i : ℕ) : ℝ :=
  let molar0 := f0.x i * meanMolar l0 l1 f0 f1
  let molar1 := f1.x i * meanMolar l0 l1 f0 f1
  diffusivity l0 l1 f0 f1 * (molar0 - molar1) * (1 / (l0 + l1))

/-- `positiveFlux` and `negativeFlux` of `n` compounds, core/GunnsFluidUtils.cpp:923-944. -/
noncomputable def twoWay (n : ℕ) (j : ℕ → ℝ) : ℝ × ℝ :=
  loop (fun i s => if j i ≥ 0 then (s.1 + j i, s.2) else (s.1, s.2 + j i)) n (0, 0)

/-- `limitNetFluxRatio`, core/GunnsFluidUtils.cpp:950-964. -/
noncomputable def ratio (area bulk mw0 mw1 : ℝ) (s : ℝ × ℝ) : ℝ :=
  if area > 0 then
    if bulk > 0 ∧ s.2 < 0 ∧ mw0 ≠ 0 then
      limitRange 0 (min 0 (s.2 + bulk / mw0 / area) / s.2) 1
    else if bulk < 0 ∧ s.1 > 0 ∧ mw1 ≠ 0 then
      limitRange 0 (max 0 (s.1 + bulk / mw1 / area) / s.1) 1
    else 1
  else 1

/-- What `computeGasDiffusion` leaves. -/
structure Diffused where
  /-- the returned net mass flow rate -/
  net : ℝ
  /-- the mass fractions of `fluid` after `updateMass` -/
  fraction : ℕ → ℝ
  /-- the temperature of `fluid` -/
  t : ℝ

/-- `computeGasDiffusion`, core/GunnsFluidUtils.cpp:829-993, of `n` compounds with molecular weights `w`, with `updateMass`
(aspects/fluid/fluid/PolyFluid.cpp:828-847); `none` if it throws. -/
noncomputable def diffusion (n : ℕ) (w : ℕ → ℝ) (area : ℝ) (f0 f1 : Mix) (bulk l0 l1 : ℝ) : Option Diffused :=
  if l0 + l1 ≤ dblEps then none
  else
    let j := flux l0 l1 f0 f1
    let r := ratio area bulk f0.mw f1.mw (twoWay n j)
    let mass := fun i => j i * w i * r
    let sum := loop (fun i s => s + mass i) n 0
    let net := sum * area
    some { net := net
           fraction := fun i => mass i / innerLimit dblEps sum
           t := if net > 0 then f1.t else f0.t }

/-- `computeConductiveHeatFlux`, core/GunnsFluidUtils.cpp:775-796; `none` if it throws. -/
noncomputable def conduction (area : ℝ) (f0 f1 : Mix) (l0 l1 : ℝ) : Option ℝ :=
  if l0 + l1 ≤ dblEps then none
  else some (area * mean l0 l1 f0.k f1.k * (f0.t - f1.t) * (1 / (l0 + l1)))

/-- `validate`, aspects/fluid/conductor/GunnsFluidHatch.cpp:223-230: true if nothing is thrown. -/
noncomputable def valid (l0 l1 : ℝ) : Bool := if l0 + l1 < fltEps then false else true

/-- What `updateFluid` reads of the hatch and its nodes. -/
structure Site where
  /-- `mEffectiveConductivity` -/
  area : ℝ
  /-- `mFlowRate` -/
  bulk : ℝ
  /-- `mPotentialDrop` -/
  drop : ℝ
  /-- the time step -/
  dt : ℝ
  /-- No port is at the ground node. -/
  off : Bool
  /-- `getVolume` of the nodes -/
  v0 : ℝ
  v1 : ℝ

/-- `updateFluid`, aspects/fluid/conductor/GunnsFluidHatch.cpp:254-291: the diffusive flow (`none` for a rate of zero) and the
heat conducted from node 0 to node 1; `none` if it throws. -/
noncomputable def update (n : ℕ) (w : ℕ → ℝ) (f0 f1 : Mix) (l0 l1 : ℝ) (s : Site) : Option (Option Diffused × ℝ) :=
  if s.dt > dblEps ∧ s.off = true ∧ s.v0 > 0 ∧ s.v1 > 0 then
    if |s.drop| < 0.01 ∧ |f0.t - f1.t| < 20 then
      match diffusion n w s.area f0 f1 s.bulk l0 l1 with
      | none => none
      | some d => match conduction s.area f0 f1 l0 l1 with
        | none => none
        | some q => some (some d, q)
    else match conduction s.area f0 f1 l0 l1 with
      | none => none
      | some q => some (none, q)
  else some (none, 0)

/-- `transportFluid` with the diffusive fluid, aspects/fluid/conductor/GunnsFluidHatch.cpp:312-318 and
core/GunnsFluidLink.cpp:210-242: the rates at which compounds go into the two nodes (`collectInflux` with the fractions of the
fluid). -/
noncomputable def transported (d : Diffused) : (ℕ → ℝ) × (ℕ → ℝ) :=
  if d.net > 100 * dblEps then (fun i => -d.net * d.fraction i, fun i => d.net * d.fraction i)
  else if d.net < -(100 * dblEps) then (fun i => -d.net * d.fraction i, fun i => d.net * d.fraction i)
  else (fun _ => 0, fun _ => 0)

/-- The rates at which heat goes with it (core/GunnsFluidNode.cpp:494), for a fluid with the enthalpies `h` of its compounds
at its temperature. -/
noncomputable def transportedHeat (n : ℕ) (h : ℕ → ℝ → ℝ) (d : Diffused) : ℝ × ℝ :=
  let e := ∑ i ∈ Finset.range n, d.fraction i * h i d.t
  if d.net > 100 * dblEps then (-d.net * e, d.net * e)
  else if d.net < -(100 * dblEps) then (-d.net * e, d.net * e)
  else (0, 0)

end Gunns.Hatch
