import Mathlib.LinearAlgebra.Matrix.Notation
import Mathlib.LinearAlgebra.UnitaryGroup
import Mathlib.Algebra.Quaternion
import Verif.Dyn.Euler

/-!
# What attitudes mean

The textbook objects the dynamics utilities are compared with: matrices and vectors of Mathlib, the
Hamilton quaternions of Mathlib, and the rotation of a coordinate frame about one of its axes.
-/

namespace Gunns.Dyn

open Matrix

/-- The vector an array holds. -/
def toVec {K : Type _} (n : Nat) (v : Arr K) : Fin n → K := fun i => v i

/-- The square matrix an array holds row by row. -/
def toMat {K : Type _} (n : Nat) (m : Arr K) : Matrix (Fin n) (Fin n) K :=
  fun i j => m (i * n + j)

/-- The Hamilton quaternion an array holds, scalar part first. -/
def toQuat {K : Type _} [CommRing K] (q : Arr K) : Quaternion K := ⟨q 0, q 1, q 2, q 3⟩

/-- A quaternion of magnitude one. -/
def UnitQ {K : Type _} [CommRing K] (q : Arr K) : Prop :=
  q 0 ^ 2 + q 1 ^ 2 + q 2 ^ 2 + q 3 ^ 2 = 1

/-- The coordinates of a fixed vector when the frame turns by `θ` about its axis. -/
noncomputable def rot (axis : Fin 3) (θ : ℝ) : Matrix (Fin 3) (Fin 3) ℝ :=
  match axis with
  | 0 => !![1, 0, 0; 0, Real.cos θ, Real.sin θ; 0, -Real.sin θ, Real.cos θ]
  | 1 => !![Real.cos θ, 0, -Real.sin θ; 0, 1, 0; Real.sin θ, 0, Real.cos θ]
  | 2 => !![Real.cos θ, Real.sin θ, 0; -Real.sin θ, Real.cos θ, 0; 0, 0, 1]

/-- The axes a sequence turns about, in order. -/
def axes : Seq → Fin 3 × Fin 3 × Fin 3
  | .XYZ => (0, 1, 2)
  | .XZY => (0, 2, 1)
  | .YZX => (1, 2, 0)
  | .YXZ => (1, 0, 2)
  | .ZXY => (2, 0, 1)
  | .ZYX => (2, 1, 0)

/-- The attitude of a sequence of three turns by the given angles. -/
noncomputable def attitude (e : Seq) (a : Arr ℝ) : Matrix (Fin 3) (Fin 3) ℝ :=
  rot (axes e).2.2 (a 2) * rot (axes e).2.1 (a 1) * rot (axes e).1 (a 0)

end Gunns.Dyn
