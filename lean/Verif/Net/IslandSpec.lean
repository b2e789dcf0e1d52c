import Mathlib.Logic.Relation

/-!
# Vocabulary for the island properties
-/

namespace Gunns.Spec

/-- Nodes joined by a non-zero term above the diagonal, in either direction. -/
def Joined {K : Type _} [Zero K] (N : Nat) (A : Nat → Nat → K) (a b : Nat) : Prop :=
  a < N ∧ b < N ∧ ((a < b ∧ A a b ≠ 0) ∨ (b < a ∧ A b a ≠ 0))

/-- Nodes connected by a path of non-zero admittances. -/
def Connected {K : Type _} [Zero K] (N : Nat) (A : Nat → Nat → K) : Nat → Nat → Prop :=
  Relation.ReflTransGen (Joined N A)

end Gunns.Spec
