import Verif.LinAlg.Spec

/-!
# Vocabulary for network assembly properties

A *port matrix* is a function of two ports.  Nothing here refers to the model of the code.
-/

namespace Gunns.Spec

open Finset

variable {K : Type _} [Field K] [LinearOrder K]

/-- An element attached to network nodes: number of ports, node of each port, port matrix (row, column)
and port sources. -/
structure Element (K : Type _) where
  ports : Nat
  node : Nat → Nat
  mat : Nat → Nat → K
  src : Nat → K

/-- Contribution of an element to the term `(i, j)` of the network matrix. -/
def Element.stamp (e : Element K) (i j : Nat) : K :=
  ∑ p ∈ range e.ports, ∑ q ∈ range e.ports, if e.node p = i ∧ e.node q = j then e.mat p q else 0

/-- Contribution of an element to the source of node `i`. -/
def Element.source (e : Element K) (i : Nat) : K :=
  ∑ p ∈ range e.ports, if e.node p = i then e.src p else 0

/-- Conductance-type element: symmetric, non-positive off the diagonal, non-negative row sums. -/
structure Element.Conductive (e : Element K) : Prop where
  symm : ∀ p q, p < e.ports → q < e.ports → e.mat p q = e.mat q p
  off : ∀ p q, p < e.ports → q < e.ports → p ≠ q → e.mat p q ≤ 0
  rows : ∀ p, p < e.ports → 0 ≤ ∑ q ∈ range e.ports, e.mat p q

end Gunns.Spec
