import Verif.Base.Const
import Verif.LinAlg.CholeskySolve
import Mathlib.Algebra.Order.Group.Abs

/-!
# Model of `Sor` (ms-utils/math/linear_algebra/Sor.cpp)

`float Wt` is taken as an exact number.  A zero on the diagonal gives infinities in C++; the theorems
assume non-zero diagonals where it matters.
-/

namespace Gunns

variable {K : Type _} [Field K] [LinearOrder K]

/-- `Sor::condition`, Sor.cpp:37. -/
def sorCondition : K := dblEps * dblEps

/-- `Sor::isPositiveDefinite`, Sor.cpp:52-66. -/
def sorIsPositiveDefinite (A : Mat K) : Nat → Bool
  | 0 => true
  | n + 1 => sorIsPositiveDefinite A n && !decide (A n n < sorCondition)

/-- `lterm`, Sor.cpp:121-129: sum of `A[i][j]*x[j]` over `j < i`. -/
def sorLower (A : Mat K) (x : Vect K) (i : Nat) : K := loop (fun j s => s + A i j * x j) i 0

/-- `hterm`, Sor.cpp:122-137: sum of `A[i][j]*x[j]` over `i < j < n` (`j = i + 1 + d`). -/
def sorUpper (A : Mat K) (x : Vect K) (n i : Nat) : K :=
  loop (fun d s => s + A i (i + 1 + d) * x (i + 1 + d)) (n - (i + 1)) 0

/-- New value of `x[i]`, Sor.cpp:141. -/
def sorTerm (A : Mat K) (B : Vect K) (w : K) (n : Nat) (x : Vect K) (i : Nat) : K :=
  (1 - w) * x i + (w / A i i) * (-(sorLower A x i) - sorUpper A x n i + B i)

/-- One row of a sweep, Sor.cpp:120-145; the state is `x` and `esum`. -/
def sorRow (A : Mat K) (B : Vect K) (w : K) (n i : Nat) (s : Vect K × K) : Vect K × K :=
  let e := sorTerm A B w n s.1 i
  (s.1.set i e, s.2 + |e - s.1 i|)

/-- One sweep, Sor.cpp:118-145. -/
def sorSweep (A : Mat K) (B : Vect K) (w : K) (n : Nat) (x : Vect K) : Vect K × K :=
  loop (sorRow A B w n) n (x, 0)

/-- The `while (k < maxitr)` loop, Sor.cpp:113-159, with `fuel = maxitr - k` rounds left; the result is
the returned integer and the final contents of `x`. -/
def sorLoop (A : Mat K) (B : Vect K) (w : K) (n : Nat) (convg : K) :
    Nat → Nat → Vect K → Int × Vect K
  | 0, _, x => (-1, x)
  | fuel + 1, k, x =>
    let s := sorSweep A B w n x
    if s.2 < convg * n then ((k : Int), s.1) else sorLoop A B w n convg fuel (k + 1) s.1

/-- `Sor::solve`, Sor.cpp:99-160: `k` starts at 1; `maxitr` may be any integer. -/
def sorSolve (x : Vect K) (A : Mat K) (B : Vect K) (n : Nat) (w : K) (maxitr : Int) (convg : K) :
    Int × Vect K :=
  sorLoop A B w n convg (maxitr - 1).toNat 1 x

end Gunns
