import Mathlib.LinearAlgebra.CrossProduct
import Mathlib.Algebra.Order.Field.Basic
import Verif.Dyn.Spec
import Verif.Dyn.Rigid

/-!
# Newton and Euler

Vocabulary for the state derivative of a rigid body: the equations of motion of a body whose structure
frame has its origin anywhere in the body, in Mathlib's vectors, matrices and cross product. Of the model
only the records of the inputs are used.
-/

namespace Gunns.Spec

open Gunns.Dyn Matrix

section
variable {K : Type _} [Field K]

/-- The inertia matrix about the centre of mass. -/
def inertia (p : MassProps K) : Matrix (Fin 3) (Fin 3) K :=
  !![p.ixx, p.ixy, p.ixz; p.ixy, p.iyy, p.iyz; p.ixz, p.iyz, p.izz]

/-- The centre of mass in the structure frame. -/
def centre (p : MassProps K) : Fin 3 → K := toVec 3 p.cm

/-- Sum of the active forces. -/
def netForce (fs : List (Force K)) : Fin 3 → K :=
  ((fs.filter (fun f => f.active)).map (fun f => toVec 3 f.force)).sum

/-- Sum of the active torques and of the moments of the active forces, about the centre of mass. -/
def netTorque (p : MassProps K) (fs : List (Force K)) (ts : List (Torque K)) : Fin 3 → K :=
  ((fs.filter (fun f => f.active)).map (fun f => (toVec 3 f.location - centre p) ⨯₃ toVec 3 f.force)).sum +
  ((ts.filter (fun t => t.active)).map (fun t => toVec 3 t.torque)).sum

/-- Newton's law: mass times the acceleration of the centre of mass is the force. The centre of mass
accelerates by `a + α × c + ω × (ω × c)` when the origin accelerates by `a`. -/
def NewtonEq (p : MassProps K) (w : Fin 3 → K) (fs : List (Force K)) (a α : Fin 3 → K) : Prop :=
  p.mass • (a + α ⨯₃ centre p + w ⨯₃ (w ⨯₃ centre p)) = netForce fs

/-- Euler's equation about the centre of mass. -/
def EulerEq (p : MassProps K) (w : Fin 3 → K) (fs : List (Force K)) (ts : List (Torque K))
    (α : Fin 3 → K) : Prop :=
  inertia p *ᵥ α + w ⨯₃ (inertia p *ᵥ w) = netTorque p fs ts

end

variable {K : Type _} [Field K] [LinearOrder K]

/-- The checks of the mass properties. -/
def ValidMass (p : MassProps K) : Prop :=
  1 / 2 ^ 52 ≤ p.mass ∧ 1 / 2 ^ 52 ≤ p.ixx ∧ 1 / 2 ^ 52 ≤ p.iyy ∧ 1 / 2 ^ 52 ≤ p.izz ∧
  p.ixy ≤ 0 ∧ p.ixz ≤ 0 ∧ p.iyz ≤ 0

/-- The inertia matrix is positive definite. -/
def InertiaPos (p : MassProps K) : Prop := ∀ x : Fin 3 → K, x ≠ 0 → 0 < x ⬝ᵥ inertia p *ᵥ x

/-- Each moment of mass is zero or at least `1e-100`. -/
def MomentsClear (p : MassProps K) : Prop :=
  ∀ j : Fin 3, p.mass * centre p j = 0 ∨ 1 / 10 ^ 100 ≤ |p.mass * centre p j|

/-- No row of forces sums to nearly zero. -/
def RowsClear (p : MassProps K) : Prop :=
  1 / 2 ^ 52 ≤ |p.mass * (1 + centre p 2 - centre p 1)| ∧
  1 / 2 ^ 52 ≤ |p.mass * (1 + centre p 0 - centre p 2)| ∧
  1 / 2 ^ 52 ≤ |p.mass * (1 + centre p 1 - centre p 0)|

/-- `x` is what is left of `y` when magnitudes below `2⁻⁵²` are set to zero. -/
def Cleaned (x y : K) : Prop := x = y ∨ (x = 0 ∧ |y| < 1 / 2 ^ 52)

/-- Signs of the offset that the sparse decomposition handles: of each pair of coordinates one is zero, or
they have the signs shown and are not tiny. -/
structure OffsetOk (p : MassProps K) : Prop where
  xy : centre p 0 * centre p 1 = 0 ∨ (1 / 10 ^ 100 < p.mass * centre p 0 ∧ 1 / 10 ^ 100 < - centre p 1)
  xz : centre p 0 * centre p 2 = 0 ∨
    (1 / 10 ^ 100 < - (p.mass * centre p 0) ∧ 1 / 10 ^ 100 < centre p 2)
  yz : centre p 1 * centre p 2 = 0 ∨ (1 / 10 ^ 100 < p.mass * centre p 1 ∧ 1 / 10 ^ 100 < - centre p 2)

/-- No row of moments sums to nearly zero. -/
def MomentRowsClear (p : MassProps K) : Prop :=
  1 / 2 ^ 52 ≤ |p.mass * (centre p 1 - centre p 2) + p.ixx + p.mass * (centre p 1 ^ 2 + centre p 2 ^ 2) +
    p.ixy + p.ixz - p.mass * (centre p 0 * (centre p 1 + centre p 2))| ∧
  1 / 2 ^ 52 ≤ |p.mass * (centre p 2 - centre p 0) + p.iyy + p.mass * (centre p 0 ^ 2 + centre p 2 ^ 2) +
    p.ixy + p.iyz - p.mass * (centre p 1 * (centre p 0 + centre p 2))| ∧
  1 / 2 ^ 52 ≤ |p.mass * (centre p 0 - centre p 1) + p.izz + p.mass * (centre p 0 ^ 2 + centre p 1 ^ 2) +
    p.ixz + p.iyz - p.mass * (centre p 2 * (centre p 0 + centre p 1))|

end Gunns.Spec
