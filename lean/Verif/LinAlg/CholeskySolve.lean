import Verif.LinAlg.Cholesky

/-!
# Model of `CholeskyLdu::Solve` and `CholeskyLdu::Invert`

Vectors `double x[n]` are functions of the index.  `Solve` writes `x[0]` and `x[n-1]` without looking
at `n`, so `n = 0` is an out-of-bounds access (`outOfBounds`).
-/

namespace Gunns

variable {K : Type _} [Field K] [LinearOrder K]

/-- `SolveUnitLowerTriangular`, inner loop body, CholeskyLdu.cpp:309: `x[k] -= x[i] * L[k][i]`. -/
def lowerInner (L : Mat K) (k i : Nat) (x : Vect K) : Vect K := x.set k (x k - x i * L k i)

/-- `SolveUnitLowerTriangular`, CholeskyLdu.cpp:301-312, `B` and `x` being different arrays (as in the
call of `Solve`, line 229).  The row loop starts at 1; `kk` is `k-1`. -/
def solveUnitLower (L : Mat K) (B x : Vect K) (n : Nat) : Vect K :=
  loop (fun kk x => loop (lowerInner L (kk + 1)) (kk + 1) (x.set (kk + 1) (B (kk + 1)))) (n - 1)
    (x.set 0 (B 0))

/-- `SolveUnitUpperTriangular`, inner loop body, CholeskyLdu.cpp:375, `i = k + 1 + d`. -/
def upperInner (U : Mat K) (k d : Nat) (x : Vect K) : Vect K :=
  x.set k (x k - x (k + 1 + d) * U k (k + 1 + d))

/-- `SolveUnitUpperTriangular`, CholeskyLdu.cpp:366-378, called in place (`B == x`, line 244), so that
`x[n-1] = B[n-1]` and `x[k] = B[k]` are self-assignments.  The loop runs `k = n-2` down to `0`; `c`
counts the rounds. -/
def solveUnitUpperInPlace (U : Mat K) (x : Vect K) (n : Nat) : Vect K :=
  loop (fun c x => loop (upperInner U (n - 2 - c)) (n - 1 - (n - 2 - c))
    (x.set (n - 2 - c) (x (n - 2 - c)))) (n - 1) (x.set (n - 1) (x (n - 1)))

/-- Outcome of `Solve`. -/
inductive SolveResult (K : Type _) where
  /-- normal return with the contents of `x` -/
  | ok (x : Vect K)
  /-- `TsNumericalException` "failed at row k", with the contents of `x` -/
  | failed (row : Nat) (x : Vect K)
  /-- `n = 0`: access outside of the arrays -/
  | outOfBounds

/-- The scaling loop of `Solve` with its zero check, CholeskyLdu.cpp:232-240. -/
def solveScale (LDU : Mat K) (x : Vect K) : Nat → SolveResult K
  | 0 => .ok x
  | k + 1 =>
    match solveScale LDU x k with
    | .ok y => if LDU k k = 0 then .failed k y else .ok (y.set k (y k / LDU k k))
    | r => r

/-- `CholeskyLdu::Solve`, CholeskyLdu.cpp:223-245. -/
def solve (LDU : Mat K) (B x : Vect K) (n : Nat) : SolveResult K :=
  if n = 0 then .outOfBounds else
  match solveScale LDU (solveUnitLower LDU B x n) n with
  | .ok y => .ok (solveUnitUpperInPlace LDU y n)
  | r => r

/-- `InvertUnitLowerTriangular`, inner loop body, CholeskyLdu.cpp:343, `k = j + 1 + d`. -/
def invLowerInner (i j d : Nat) (A : Mat K) : Mat K :=
  A.set i j (A i j - A i (j + 1 + d) * A (j + 1 + d) j)

/-- `InvertUnitLowerTriangular`, CholeskyLdu.cpp:332-347.  The row loop starts at 1; `ii` is `i-1`. -/
def invertUnitLower (A : Mat K) (n : Nat) : Mat K :=
  loop (fun ii A => loop (fun j A => loop (invLowerInner (ii + 1) j) (ii + 1 - (j + 1))
    (A.set (ii + 1) j (-(A (ii + 1) j)))) (ii + 1) A) (n - 1) A

/-- `Invert`, inner accumulation, CholeskyLdu.cpp:277, `k = i + 1 + d`. -/
def invAccum (i j d : Nat) (A : Mat K) : Mat K :=
  A.set i j (A i j + A (i + 1 + d) i * A (i + 1 + d) j / A (i + 1 + d) (i + 1 + d))

/-- `Invert`, body of the `i` loop, CholeskyLdu.cpp:270-279. -/
def invBody (n i j : Nat) (A : Mat K) : Mat K :=
  let A1 := if j = i then A.set i j (1 / A i i) else A.set i j (A i j / A i i)
  let A2 := loop (invAccum i j) (n - (i + 1)) A1
  A2.set j i (A2 i j)

/-- `CholeskyLdu::Invert`, CholeskyLdu.cpp:259-282 (`i = j + d`).  A zero on the diagonal gives
infinities in C++; the theorems about it assume non-zero diagonals. -/
def invert (LDU : Mat K) (n : Nat) : Mat K :=
  loop (fun j A => loop (fun d A => invBody n (j + d) j A) (n - j) A) n (invertUnitLower LDU n)

end Gunns
