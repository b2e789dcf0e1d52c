import Verif.Fluid.Reactor
import Mathlib.Algebra.BigOperators.Fin

/-!
# What a chemical reactor should do

A run of a reaction consumes and produces moles of compounds in fixed proportions.
-/

namespace Gunns.Fluid

open Finset

variable {K : Type _} [Field K] [LinearOrder K] [IsStrictOrderedRing K]

/-- Moles of compound `k` that one run of the reaction produces; negative: consumes. -/
def stoich (r : Reaction K) (k : Nat) : K :=
  (if k = r.product1 then r.nProduct1 else 0) + (if r.product2 = some k then r.nProduct2 else 0) -
    (if k = r.reactant then r.nReactant else 0) - (if k = r.reagent then r.nReagent else 0)

/-- `a` per mole is not changed by the reaction. -/
def Balances (n : Nat) (a : Nat → K) (r : Reaction K) : Prop := ∑ k ∈ range n, stoich r k * a k = 0

/-- A reaction of two different compounds, among the `n` there are. -/
structure ProperReaction (n : Nat) (r : Reaction K) : Prop where
  reactant : r.reactant < n
  reagent : r.reagent < n
  product1 : r.product1 < n
  product2 : ∀ p, r.product2 = some p → p < n
  distinct : r.reactant ≠ r.reagent
  nReactant : 0 < r.nReactant
  nReagent : 0 < r.nReagent
  nProduct1 : 0 ≤ r.nProduct1
  nProduct2 : 0 ≤ r.nProduct2

/-- There is a weight and no negative mass of every compound. -/
structure ProperCompounds (n : Nat) (c : Nat → Compound K) : Prop where
  weight : ∀ k, k < n → 0 < (c k).weight
  total : ∀ k, k < n → 0 ≤ (c k).total

/-- The reactor can run. -/
structure ProperReactor (eff : Reaction K → (Nat → Compound K) → K) (s : Reactor K) : Prop where
  reactions : ∀ r ∈ s.reactions, ProperReaction s.n r
  compounds : ProperCompounds s.n s.comp
  efficiency : ∀ r ∈ s.reactions, ∀ c, ProperCompounds s.n c → 0 ≤ eff r c

/-- The chemical elements of the compounds. -/
inductive Element
  | H | C | O | N | Li | P | Cl | Si | He | Ar
  deriving DecidableEq

/-- Atoms of an element in a molecule. -/
def Chem.atoms : Chem → Element → Nat
  | .CH2O, .C => 1 | .CH2O, .H => 2 | .CH2O, .O => 1
  | .CH2CL2, .C => 1 | .CH2CL2, .H => 2 | .CH2CL2, .Cl => 2
  | .CH4, .C => 1 | .CH4, .H => 4
  | .CH4O, .C => 1 | .CH4O, .H => 4 | .CH4O, .O => 1
  | .C2H4O, .C => 2 | .C2H4O, .H => 4 | .C2H4O, .O => 1
  | .C2H6O, .C => 2 | .C2H6O, .H => 6 | .C2H6O, .O => 1
  | .C3H6O, .C => 3 | .C3H6O, .H => 6 | .C3H6O, .O => 1
  | .C3H10OSI, .C => 3 | .C3H10OSI, .H => 10 | .C3H10OSI, .O => 1 | .C3H10OSI, .Si => 1
  | .C4H4O, .C => 4 | .C4H4O, .H => 4 | .C4H4O, .O => 1
  | .C4H10O, .C => 4 | .C4H10O, .H => 10 | .C4H10O, .O => 1
  | .C6H6, .C => 6 | .C6H6, .H => 6
  | .C6H18O3SI3, .C => 6 | .C6H18O3SI3, .H => 18 | .C6H18O3SI3, .O => 3 | .C6H18O3SI3, .Si => 3
  | .C7H8, .C => 7 | .C7H8, .H => 8
  | .C8H10, .C => 8 | .C8H10, .H => 10
  | .CO, .C => 1 | .CO, .O => 1
  | .CO2, .C => 1 | .CO2, .O => 2
  | .H2, .H => 2
  | .H2O, .H => 2 | .H2O, .O => 1
  | .H3PO4, .H => 3 | .H3PO4, .P => 1 | .H3PO4, .O => 4
  | .H, .H => 1
  | .LIOH, .Li => 1 | .LIOH, .O => 1 | .LIOH, .H => 1
  | .LIOHH2O, .Li => 1 | .LIOHH2O, .O => 2 | .LIOHH2O, .H => 3
  | .LI2CO3, .Li => 2 | .LI2CO3, .C => 1 | .LI2CO3, .O => 3
  | .NH3, .N => 1 | .NH3, .H => 3
  | .NH42HPO4, .N => 2 | .NH42HPO4, .H => 9 | .NH42HPO4, .P => 1 | .NH42HPO4, .O => 4
  | .O2, .O => 2
  | .OH, .O => 1 | .OH, .H => 1
  | .O, .O => 1
  | .He, .He => 1
  | .Ar, .Ar => 1
  | _, _ => 0

/-- Standard atomic weights. -/
def Element.weight : Element → K
  | .H => 100794 / 100000
  | .C => 120107 / 10000
  | .O => 159994 / 10000
  | .N => 140067 / 10000
  | .Li => 6941 / 1000
  | .P => 30973762 / 1000000
  | .Cl => 35453 / 1000
  | .Si => 280855 / 10000
  | .He => 4002602 / 1000000
  | .Ar => 39948 / 1000

/-- All elements. -/
def elements : List Element := [.H, .C, .O, .N, .Li, .P, .Cl, .Si, .He, .Ar]

/-- One update of the reactor: length, flow rate and mass fractions of the fluid that flows through. -/
structure Passage (K : Type _) where
  dt : K
  flow : K
  x : Nat → K

/-- Many updates. -/
def passAll (eff : Reaction K → (Nat → Compound K) → K) (s : Reactor K) (ps : List (Passage K)) : Reactor K :=
  ps.foldl (fun s p => updateFluid eff p.dt p.flow p.x s) s

/-- Mass of compound `k` that an update produces. -/
def produced (eff : Reaction K → (Nat → Compound K) → K) (s : Reactor K) (p : Passage K) (k : Nat) : K :=
  if reacts p.dt p.flow then ((updateFluid eff p.dt p.flow p.x s).comp k).mass else 0

/-- Mass of compound `k` that many updates produce. -/
def producedAll (eff : Reaction K → (Nat → Compound K) → K) : Reactor K → List (Passage K) → Nat → K
  | _, [], _ => 0
  | s, p :: ps, k => produced eff s p k + producedAll eff (updateFluid eff p.dt p.flow p.x s) ps k

/-- Mass of constituent `i` per second that calls give to a node. -/
def received (ops : List (Collect K)) (i : Nat) : K :=
  ((inflows ops).map (fun a => a.2 * (a.1.parts i).massFraction)).sum

end Gunns.Fluid
