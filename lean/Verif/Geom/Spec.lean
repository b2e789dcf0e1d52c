import Verif.Geom.Intersect
import Mathlib.Analysis.Convex.Segment

/-!
# What the shapes are

Sets of points, with Mathlib's `segment`.
-/

namespace Gunns.Geom.Spec

variable {K : Type _} [Field K] [LinearOrder K]

/-- Square of the length of a vector. -/
def normSq (v : Fin 3 → K) : K := ∑ i, v i ^ 2

/-- Inner product. -/
def inner (u v : Fin 3 → K) : K := ∑ i, u i * v i

/-- The triangle with corners `a`, `b`, `c`: all their weighted means. -/
def Triangle (a b c : Fin 3 → K) : Set (Fin 3 → K) :=
  {y | ∃ u v w : K, 0 ≤ u ∧ 0 ≤ v ∧ 0 ≤ w ∧ u + v + w = 1 ∧ y = u • a + v • b + w • c}

/-- The solid cylinder around the axis from `p` to `q`: points at most `r` away from a point of the
axis, at a right angle to the axis. -/
def Cylinder (p q : Fin 3 → K) (r : K) : Set (Fin 3 → K) :=
  {y | ∃ x ∈ segment K p q, inner (y - x) (q - p) = 0 ∧ normSq (y - x) ≤ r ^ 2}

/-- The solid ball. -/
def Ball (sc : Fin 3 → K) (sr : K) : Set (Fin 3 → K) := {y | normSq (y - sc) ≤ sr ^ 2}

/-- The solid ellipsoid with half-axes along the coordinate axes. -/
def Ellipsoid (sc : Fin 3 → K) (rx ry rz : K) : Set (Fin 3 → K) :=
  {y | ((y 0 - sc 0) / rx) ^ 2 + ((y 1 - sc 1) / ry) ^ 2 + ((y 2 - sc 2) / rz) ^ 2 ≤ 1}

/-- All points at most `r` away from the whole line through `p` and `q`. -/
def Tube (p q : Fin 3 → K) (r : K) : Set (Fin 3 → K) :=
  {y | ∃ s : K, inner (y - (p + s • (q - p))) (q - p) = 0 ∧ normSq (y - (p + s • (q - p))) ≤ r ^ 2}

/-- `x` is the first point of `S` on the way from `p` to `q`. -/
def First (p q : Fin 3 → K) (S : Set (Fin 3 → K)) (x : Fin 3 → K) : Prop :=
  x ∈ segment K p q ∧ x ∈ S ∧ ∀ y ∈ segment K p x, y ∈ S → y = x

/-- The right answer: the first point of the shape on the segment, or that they have none in common. -/
def Answers (p q : Fin 3 → K) (S : Set (Fin 3 → K)) : Option (Fin 3 → K) → Prop
  | some x => First p q S x
  | none => Disjoint (segment K p q) S

end Gunns.Geom.Spec
