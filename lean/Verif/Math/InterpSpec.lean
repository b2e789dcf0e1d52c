import Mathlib.Algebra.Order.Field.Basic
import Mathlib.Tactic.Linarith
import Mathlib.Tactic.Ring
import Mathlib.Tactic.FieldSimp
import Mathlib.Algebra.Order.Group.MinMax

/-!
# What interpolation in a table means

Nothing here refers to the model of the code.
-/

namespace Gunns.Interp

variable {K : Type _} [Field K] [LinearOrder K] [IsStrictOrderedRing K]

/-- `t` is between `a` and `b`, given in any order. -/
def Between (a t b : K) : Prop := (a ≤ t ∧ t ≤ b) ∨ (b ≤ t ∧ t ≤ a)

/-- The straight line through `(a, fa)` and `(b, fb)` at `t`. -/
def line (a b fa fb t : K) : K := fa + (fb - fa) * ((t - a) / (b - a))

/-- `v` is the value at `t` of the piecewise linear function through the points `(x k, z k)`, `k < n`: some segment
contains `t`, and `v` is on every segment that contains `t`. -/
def IsInterp (x z : Nat → K) (n : Nat) (t v : K) : Prop :=
  (∃ k, k + 1 < n ∧ Between (x k) t (x (k + 1))) ∧
  ∀ k, k + 1 < n → Between (x k) t (x (k + 1)) → v = line (x k) (x (k + 1)) (z k) (z (k + 1)) t

/-- `v` is the value at `(s, t)` of the function through the points `(x k, y l, z k l)` which is linear in each variable
in each rectangle of the grid. -/
def IsBiInterp (x y : Nat → K) (z : Nat → Nat → K) (m n : Nat) (s t v : K) : Prop :=
  (∃ k, k + 1 < m ∧ Between (x k) s (x (k + 1))) ∧ (∃ l, l + 1 < n ∧ Between (y l) t (y (l + 1))) ∧
  ∀ k l, k + 1 < m → l + 1 < n → Between (x k) s (x (k + 1)) → Between (y l) t (y (l + 1)) →
    v = line (y l) (y (l + 1)) (line (x k) (x (k + 1)) (z k l) (z (k + 1) l) s)
      (line (x k) (x (k + 1)) (z k (l + 1)) (z (k + 1) (l + 1)) s) t

/-- `t` moved into the range. -/
def clamp (lo t hi : K) : K := if t < lo then lo else if hi < t then hi else t

/-- The points are in increasing order. -/
def Asc (x : Nat → K) (n : Nat) : Prop := ∀ i, i + 1 < n → x i < x (i + 1)

/-- The points are in decreasing order. -/
def Desc (x : Nat → K) (n : Nat) : Prop := ∀ i, i + 1 < n → x (i + 1) < x i

end Gunns.Interp
