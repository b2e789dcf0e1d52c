import Verif.Base.Loop
import Mathlib.Algebra.Order.Field.Basic

/-!
# Model of `CholeskyLdu` (ms-utils/math/linear_algebra/CholeskyLdu.cpp)

A row-major `double A[n*n]` is modelled by a function `Nat → Nat → K`; the C++ expression
`*(p_i + j)` with `p_i = A + n*i` is `A i j`.  For `i, j < n` this indexing is injective and in
bounds, which is what all accesses of the modelled functions satisfy.  `double` is modelled by an
ordered field (no rounding, no NaN); a division by zero, which yields infinities or NaN in C++, is a
distinct outcome.
-/

namespace Gunns

variable {K : Type _} [Field K] [LinearOrder K]

/-- Matrices, indexed by row and column. -/
abbrev Mat (K : Type _) := Nat → Nat → K
/-- Vectors. -/
abbrev Vect (K : Type _) := Nat → K

/-- Assignment `A[i*n+j] = v`. -/
def Mat.set (A : Mat K) (i j : Nat) (v : K) : Mat K :=
  fun a b => if a = i ∧ b = j then v else A a b

/-- Assignment `x[i] = v`. -/
def Vect.set (x : Vect K) (i : Nat) (v : K) : Vect K := fun a => if a = i then v else x a

/-- `const double limit = -1.0E-100;` (CholeskyLdu.cpp:79). -/
def cholLimit : K := -(1 / 10 ^ 100)

/-- Body of the `k` loop, CholeskyLdu.cpp:80-85: the term is subtracted only when both factors are
below the (negative) limit. -/
def decomposeInner (i j k : Nat) (A : Mat K) : Mat K :=
  if A i k < cholLimit ∧ A j k < cholLimit then A.set i j (A i j - A i k * A j k) else A

/-- Flush of near-zero terms, CholeskyLdu.cpp:89-91. -/
def decomposeFlush (i j : Nat) (A : Mat K) : Mat K :=
  if cholLimit < A i j ∧ A i j < -cholLimit then A.set i j 0 else A

/-- The `j` loop of row `i`, CholeskyLdu.cpp:77-92. -/
def decomposeForward (i : Nat) (A : Mat K) : Mat K :=
  loop (fun j A => decomposeFlush i j (loop (decomposeInner i j) j A)) i A

/-- Body of the scaling loop, CholeskyLdu.cpp:97-100. -/
def decomposeScaleStep (i k : Nat) (A : Mat K) : Mat K :=
  let ld := A i k / A k k
  ((A.set i i (A i i - A i k * ld)).set i k ld).set k i ld

/-- The scaling loop of row `i`, CholeskyLdu.cpp:95-101. -/
def decomposeScale (i : Nat) (A : Mat K) : Mat K := loop (decomposeScaleStep i) i A

/-- Row `i` of `Decompose` up to the pivot check, CholeskyLdu.cpp:77-101. -/
def decomposeRow (i : Nat) (A : Mat K) : Mat K := decomposeScale i (decomposeForward i A)

/-- Outcome of `Decompose`. -/
inductive DecompResult (K : Type _) where
  /-- normal return, with the matrix left in `A` -/
  | ok (A : Mat K)
  /-- `TsNumericalException` "failed at row i", with the matrix left in `A` -/
  | failed (row : Nat) (A : Mat K)
  /-- a division by a zero pivot happened while row `i` was processed: infinities or NaN in C++ -/
  | divByZero (row : Nat)

/-- `CholeskyLdu::Decompose(double *A, int n)`, CholeskyLdu.cpp:63-110.  The row loop starts at 1.
`decomposeTo A m` is the state after rows `1..m`; the diagonal terms of rows `< i` do not change while
row `i` is processed, so the check for a zero divisor is made up front. -/
def decomposeTo (A : Mat K) : Nat → DecompResult K
  | 0 => .ok A
  | m + 1 =>
    match decomposeTo A m with
    | .ok B =>
      if ∃ k, k < m + 1 ∧ B k k = 0 then .divByZero (m + 1)
      else
        let C := decomposeRow (m + 1) B
        if C (m + 1) (m + 1) ≤ 0 then .failed (m + 1) C else .ok C
    | r => r

/-- `CholeskyLdu::Decompose(double *A, int n)`, CholeskyLdu.cpp:63-110: rows `1..n-1`. -/
def decompose (A : Mat K) (n : Nat) : DecompResult K := decomposeTo A (n - 1)

end Gunns
