import Verif.Fluid.PolyFluid
import Mathlib.Algebra.BigOperators.Group.Finset.Basic
import Mathlib.Algebra.BigOperators.Ring.Finset
import Mathlib.Algebra.Order.BigOperators.Group.Finset
import Mathlib.Algebra.Order.BigOperators.Ring.Finset
import Mathlib.Algebra.BigOperators.Field
import Mathlib.Tactic.Ring
import Mathlib.Tactic.Linarith
import Mathlib.Tactic.FieldSimp
import Mathlib.Tactic.Positivity

/-!
# What a mixture should look like
-/

namespace Gunns.Fluid

open Finset

variable {K : Type _} [Field K] [LinearOrder K] [IsStrictOrderedRing K]

/-- Molecular weights are positive and not absurdly large: `1 / w` is at least `2 DBL_EPSILON`, so that none of
the guards against division by zero acts on a mixture that has fractions of sum about one. -/
def GoodWeights (p : Poly K) : Prop := ∀ i, i < p.n → 2 * dblEps ≤ p.mw i ∧ 2 * dblEps * p.mw i ≤ 1

/-- A proper mixture: the fractions are not negative and add up to one (to single precision), the two kinds of
fractions agree with each other, and the molecular weight of the mixture is the one that relates them. -/
structure Mixed (p : Poly K) : Prop where
  nonneg : ∀ i, i < p.n → 0 ≤ (p.parts i).massFraction ∧ 0 ≤ (p.parts i).moleFraction
  massSum : |∑ i ∈ range p.n, (p.parts i).massFraction - 1| ≤ fltEps
  moleSum : |∑ i ∈ range p.n, (p.parts i).moleFraction - 1| ≤ fltEps
  weight : 0 < p.mweight ∧
    ∀ i, i < p.n → (p.parts i).moleFraction * p.mw i = (p.parts i).massFraction * p.mweight

/-- The flow rate is shared among the constituents by their mass fractions. -/
def FlowShared (p : Poly K) : Prop :=
  ∀ i, i < p.n → (p.parts i).flowRate = (p.parts i).massFraction * p.flowRate

/-- The mass and moles are shared among the constituents by their fractions. -/
structure ContentShared (p : Poly K) : Prop where
  mass : ∀ i, i < p.n → (p.parts i).mass = (p.parts i).massFraction * p.mass
  mole : ∀ i, i < p.n → (p.parts i).mole * p.mw i = (p.parts i).mass
  moles : p.mole * p.mweight = p.mass

/-- The guard against small flow rates of a single constituent, `MonoFluid::mMinFlowRate`, does not act when
`flow` of this source is added. -/
def NoTinyParts (src : Poly K) (flow : K) : Prop :=
  ∀ i, i < src.n → (src.parts i).massFraction = 0 ∨ minFlowRate ≤ |flow * (src.parts i).massFraction|

/-- The same constituents. -/
def SameFluids (p q : Poly K) : Prop := p.n = q.n ∧ ∀ i, i < p.n → p.types i = q.types i ∧ p.mw i = q.mw i

end Gunns.Fluid
