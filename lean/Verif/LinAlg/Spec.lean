import Mathlib.Algebra.Order.Field.Basic
import Mathlib.Algebra.BigOperators.Group.Finset.Basic

/-!
# Vocabulary for the linear algebra properties

Nothing here refers to the model of the code.  Matrices are functions of row and column; only the
entries below `n` matter.
-/

namespace Gunns.Spec

open Finset

variable {K : Type _} [Field K] [LinearOrder K]

/-- `A` is symmetric. -/
def Symm (n : Nat) (A : Nat → Nat → K) : Prop := ∀ i j, i < n → j < n → A i j = A j i

/-- All terms off the diagonal are `≤ 0`. -/
def OffDiagNonpos (n : Nat) (A : Nat → Nat → K) : Prop :=
  ∀ i j, i < n → j < n → i ≠ j → A i j ≤ 0

/-- Sum of row `i`. -/
def rowSum (n : Nat) (A : Nat → Nat → K) (i : Nat) : K := ∑ j ∈ range n, A i j

/-- Matrix times vector. -/
def mulVec (n : Nat) (A : Nat → Nat → K) (x : Nat → K) (i : Nat) : K := ∑ j ∈ range n, A i j * x j

/-- Quadratic form `xᵀ A x`. -/
def quad (n : Nat) (A : Nat → Nat → K) (x : Nat → K) : K :=
  ∑ i ∈ range n, ∑ j ∈ range n, x i * A i j * x j

/-- `A` is positive definite. -/
def PosDef (n : Nat) (A : Nat → Nat → K) : Prop :=
  ∀ x : Nat → K, (∃ i, i < n ∧ x i ≠ 0) → 0 < quad n A x

/-- The unit lower triangular matrix stored strictly below the diagonal of `B`. -/
def unitLower (B : Nat → Nat → K) (i k : Nat) : K := if k < i then B i k else if k = i then 1 else 0

/-- `L·D·Lᵀ`, with `L` stored below the diagonal of `B` and `D` on it. -/
def ldlt (n : Nat) (B : Nat → Nat → K) (i j : Nat) : K :=
  ∑ k ∈ range n, unitLower B i k * B k k * unitLower B j k

/-- `B` repeats its strictly lower part above the diagonal. -/
def UpperIsLower (n : Nat) (B : Nat → Nat → K) : Prop := ∀ i k, i < n → k < i → B k i = B i k

end Gunns.Spec
