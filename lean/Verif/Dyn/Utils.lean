import Mathlib.Analysis.SpecialFunctions.Pow.Real
import Verif.Base.Loop
import Verif.Base.Const

/-!
# Vector, matrix and quaternion utilities

`aspects/dynamics/GunnsDynUtils.cpp`.  A C++ array of doubles is a function from its index; a
square matrix is stored row by row in one array.  Every function that writes through a pointer is
modelled by the array it leaves there (the C++ copies its inputs first where the output may alias
them: lines 123-125, 144-145, 167-168, 495-498).
-/

namespace Gunns.Dyn

/-- An array of doubles. -/
abbrev Arr (K : Type _) := Nat → K

/-- The array holding the elements of a list, zero beyond its end (never read there). -/
def arr {K : Type _} [Zero K] (l : List K) : Arr K := fun i => l.getD i 0

section ring

variable {K : Type _} [CommRing K]

/-- `setV`/`setM` copy; `zeroV` (58-63). -/
def zeroV : Arr K := fun _ => 0

/-- `addV` (73-78). -/
def addV (b c : Arr K) : Arr K := fun i => b i + c i

/-- `subtractV` (89-94). -/
def subtractV (b c : Arr K) : Arr K := fun i => b i - c i

/-- `scaleV` (105-110). -/
def scaleV (b : Arr K) (s : K) : Arr K := fun i => b i * s

/-- `crossV3` (120-129). -/
def crossV3 (b c : Arr K) : Arr K :=
  arr [b 1 * c 2 - b 2 * c 1, b 2 * c 0 - b 0 * c 2, b 0 * c 1 - b 1 * c 0]

/-- `multiplyMV` (140-152): row `row` of the result starts at zero and accumulates
`mB[row*size+col] * C[col]`. -/
def multiplyMV (mB c : Arr K) (size : Nat) : Arr K := fun row =>
  loop (fun col acc => acc + mB (row * size + col) * c col) size 0

/-- `multiplyMtV` (163-175). -/
def multiplyMtV (mB c : Arr K) (size : Nat) : Arr K := fun row =>
  loop (fun col acc => acc + mB (col * size + row) * c col) size 0

/-- `skew` (183-194). -/
def skew (v : Arr K) : Arr K :=
  arr [0, - v 2, v 1, v 2, 0, - v 0, - v 1, v 0, 0]

/-- `dotV` (205-212). -/
def dotV (a b : Arr K) (size : Nat) : K :=
  loop (fun i acc => acc + a i * b i) size 0

/-- `&q[1]`: the array from the second element on. -/
def tail (q : Arr K) : Arr K := fun i => q (i + 1)

/-- `multiplyMM` (491-508): element `row*size+col` accumulates `B[row*size+i] * C[i*size+col]`. -/
def multiplyMM (mB mC : Arr K) (size : Nat) : Arr K := fun n =>
  loop (fun i acc => acc + mB ((n / size) * size + i) * mC (i * size + n % size)) size 0

/-- `QtoM0` to `QtoM8` (257-364), the table `QtoMElement`. -/
def qtoMElement (q : Arr K) : Nat → K
  | 0 => 1 - 2 * (q 2 * q 2 + q 3 * q 3)
  | 1 => 2 * (q 1 * q 2 - q 0 * q 3)
  | 2 => 2 * (q 1 * q 3 + q 0 * q 2)
  | 3 => 2 * (q 1 * q 2 + q 0 * q 3)
  | 4 => 1 - 2 * (q 1 * q 1 + q 3 * q 3)
  | 5 => 2 * (q 2 * q 3 - q 0 * q 1)
  | 6 => 2 * (q 1 * q 3 - q 0 * q 2)
  | 7 => 2 * (q 2 * q 3 + q 0 * q 1)
  | 8 => 1 - 2 * (q 1 * q 1 + q 2 * q 2)
  | _ => 0

/-- `QtoM` (242-247). -/
def qtoM (q : Arr K) : Arr K := fun i => qtoMElement q i

/-- `isNonZeroV` (519-527), on a vector of three. -/
def isNonZeroV3 [DecidableEq K] (v : Arr K) : Bool := decide (v 0 ≠ 0 ∨ v 1 ≠ 0 ∨ v 2 ≠ 0)

end ring

section field

variable {K : Type _} [Field K]

/-- `Qdot` (222-233). -/
def qdot (q w : Arr K) : Arr K :=
  let q0w := scaleV w (- q 0)
  let qSkew := skew (tail q)
  let qSkewW := multiplyMV qSkew w 3
  let v := addV qSkewW q0w
  scaleV (arr [dotV (tail q) w 3, v 0, v 1, v 2]) (1 / 2)

end field

/-- `MtoQ` (375-386); `none` is the thrown `TsNumericalException`. -/
noncomputable def mtoQ (m : Arr ℝ) : Option (Arr ℝ) :=
  let diags := m 0 + m 4 + m 8
  if -1 < diags then
    let q0 := 1 / 2 * Real.sqrt (1 + diags)
    some (arr [q0, 1 / 4 * (m 7 - m 5) / q0, 1 / 4 * (m 2 - m 6) / q0, 1 / 4 * (m 3 - m 1) / q0])
  else none

/-- `quatNormTolerance` (33). -/
noncomputable def quatNormTolerance : ℝ := 0.00000023842

/-- `vecNormTolerance` (36), `DBL_EPSILON`. -/
noncomputable def vecNormTolerance : ℝ := dblEps

/-- `normalizeQ` (393-406); `none` is the division by zero of line 400. -/
noncomputable def normalizeQ (q : Arr ℝ) : Option (Arr ℝ) :=
  let mag2 := dotV q q 4
  if |1 - mag2| < quatNormTolerance then
    let factor := 2 / (1 + mag2)
    some (arr [q 0 * factor, q 1 * factor, q 2 * factor, q 3 * factor])
  else if Real.sqrt mag2 = 0 then none
  else
    let factor := 1 / Real.sqrt mag2
    some (arr [q 0 * factor, q 1 * factor, q 2 * factor, q 3 * factor])

/-- `magV` (458-465). -/
noncomputable def magV (v : Arr ℝ) (size : Nat) : ℝ :=
  Real.sqrt (loop (fun i acc => acc + v i * v i) size 0)

/-- `normalizeV` (416-427); `none` is the thrown `TsNumericalException` (the vector is left
unchanged). -/
noncomputable def normalizeV (v : Arr ℝ) : Option (Arr ℝ) :=
  let mag := magV v 3
  if mag < vecNormTolerance then none
  else
    let factor := 1 / mag
    some (arr [v 0 * factor, v 1 * factor, v 2 * factor])

/-- `normalizeVSuccess` (439-448): whether it succeeded, and the vector left. -/
noncomputable def normalizeVSuccess (v : Arr ℝ) (size : Nat) : Bool × Arr ℝ :=
  let mag := magV v size
  if mag < vecNormTolerance then (false, v) else (true, scaleV v (1 / mag))

end Gunns.Dyn
