import Verif.Base.Const
import Mathlib.Analysis.SpecialFunctions.Log.Basic
import Mathlib.Analysis.SpecialFunctions.Pow.Real

/-!
# Lambert's W function

Model of `ms-utils/math/elementary_functions/LambertW.cpp`.

Simplifications: doubles are real numbers, nothing is rounded; `std::exp(1.0)` is e.  The exception is `thrown`; the logarithm of a
number that is not positive and the division by zero are `nan`.
-/

namespace Gunns.Lambert

open Real

/-- What a solving function does: it throws, computes something that is not a number, or returns a value. -/
inductive Out where
  | thrown
  | nan
  | val (r : ℝ)

/-- `mIterLimit`, LambertW.hh:77. -/
def iterLimit : ℕ := 10

/-- `mMaxInputLim0`, LambertW.cpp:25. -/
noncomputable def maxInput0 : ℝ := 10 ^ 300

/-- `mMaxInputLim1`, LambertW.cpp:28. -/
noncomputable def maxInput1 : ℝ := -(1 / 10 ^ 300)

/-- `mMinRangeBoundary`, LambertW.cpp:31. -/
noncomputable def minBoundary : ℝ := -(1 / exp 1) + 1 / 10 ^ 12

/-- `mW1InitDiscriminator`, LambertW.cpp:35. -/
noncomputable def discriminator : ℝ := -(8 / 1000)

/-- One pass of the formula of Iacono and Boyd, LambertW.cpp:165. -/
noncomputable def pass (input w : ℝ) : ℝ := w * (1 + log (input / w)) / (1 + w)

/-- The loop of `improve` with `n` passes left, LambertW.cpp:160-172. -/
noncomputable def improve (input convergence : ℝ) : ℕ → ℝ → Out
  | 0, w => .val w
  | n + 1, w =>
    if 0 < input / w ∧ 1 + w ≠ 0 then
      if |pass input w - w| ≤ convergence then .val (pass input w) else improve input convergence n (pass input w)
    else .nan

/-- The first estimate on the principal branch, LambertW.cpp:67-78. -/
noncomputable def start0 (input : ℝ) : ℝ :=
  if input > exp 1 then log input - log (log input)
  else if input > 0 then input / exp 1
  else
    let eulerX := exp 1 * input
    let sqrtEulerX := 1 + √(1 + eulerX)
    eulerX * log sqrtEulerX / (eulerX + sqrtEulerX)

/-- `solveW0`, LambertW.cpp:49-84, with `checkMinRange` (lines 135-142). -/
noncomputable def solveW0 (input convergence : ℝ) : Out :=
  if input > maxInput0 then .thrown
  else if input < -(1 / exp 1) then .thrown
  else if input < minBoundary then .val (-1)
  else if -dblEps ≤ input ∧ input ≤ dblEps then .val input
  else improve input convergence iterLimit (start0 input)

/-- The first estimate on the other branch, LambertW.cpp:113-120. -/
noncomputable def start1 (input : ℝ) : ℝ :=
  if input > discriminator then log (-input) - log (-log (-input)) else -1 - √(2 + 2 * exp 1 * input)

/-- `solveW1`, LambertW.cpp:98-126. -/
noncomputable def solveW1 (input convergence : ℝ) : Out :=
  if input > maxInput1 then .thrown
  else if input < -(1 / exp 1) then .thrown
  else if input < minBoundary then .val (-1)
  else improve input convergence iterLimit (start1 input)

/-- `fastSolveW0`, LambertW.cpp:192-225. -/
noncomputable def fastW0 (input : ℝ) : Out :=
  if input > maxInput0 then .thrown
  else if input < -(1 / exp 1) then .thrown
  else if input ≤ -(1 / 100) then solveW0 input 0
  else if input < 1 / 100 then .val input
  else
    let lnx := log input
    if input < 1 / 10 then .val (input - exp ((4.123e-6 * lnx + 2) * lnx + 1.64e-4))
    else if input < 100 then
      .val ((((-8.3436e-4 * lnx + 5.1352e-4) * lnx + 7.0871e-2) * lnx + 0.35642) * lnx + 0.56635)
    else if input ≤ 10 ^ 10 then .val (((-1.9947e-4 * lnx + 1.2102e-2) * lnx + 0.70037) * lnx - 8.5476e-2)
    else .val (0.996 * lnx - 3.47)

/-- `fastSolveW1`, LambertW.cpp:245-275. -/
noncomputable def fastW1 (input : ℝ) : Out :=
  if input > maxInput1 then .thrown
  else if input < -(1 / exp 1) then .thrown
  else if input > -(1 / 10 ^ 20) then solveW1 input 0
  else if input > -(1 / 1000) then
    let lnx := log (-input)
    .val (((2.4978e-5 * lnx + 2.8111e-3) * lnx + 1.1299) * lnx - 1.4733)
  else if input > -(1 / 10) then
    let lnx := log (-input)
    .val ((2.292e-2 * lnx + 1.411) * lnx - 0.461)
  else if input ≥ -0.364 then
    .val ((((248.42 * input + 134.24) * input + 4.4258) * input - 14.629) * input - 4.9631)
  else solveW1 input 0

end Gunns.Lambert
