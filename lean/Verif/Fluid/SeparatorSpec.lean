import Verif.Fluid.Separator
import Verif.Fluid.PolyFluidSpec

/-!
# What a separator should do

Constituents are counted in moles.  What is taken out of the flow waits in the separator for one step.
-/

namespace Gunns.Fluid

open Finset

variable {K : Type _} [Field K] [LinearOrder K] [IsStrictOrderedRing K]

/-- Moles of constituent `i` per second that the calls give to the node at port `p`. -/
def givenMoles (calls : List (Nat × Collect K)) (p i : Nat) : K :=
  (calls.map (fun c => if c.1 = p then
    match c.2 with | .inflow f rate => rate * (f.parts i).massFraction / f.mw i | _ => 0 else 0)).sum

/-- Moles of constituent `i` per second that are taken from the node at port `p`, which holds the fluid `out`. -/
def takenMoles (out : Poly K) (calls : List (Nat × Collect K)) (p i : Nat) : K :=
  (calls.map (fun c => if c.1 = p then
    match c.2 with | .outflux rate => rate * (out.parts i).massFraction / out.mw i | _ => 0 else 0)).sum

/-- What is set for constituent `i`, over the separated types. -/
def heldFor (s : Separator K) (v : Nat → K) (i : Nat) : K :=
  ∑ k ∈ range s.types, if s.index k = i then v k else 0

/-- A pure fluid: all of it is constituent `i`. -/
structure Pure (p : Poly K) (i : Nat) : Prop where
  inside : i < p.n
  fractions : ∀ j, j < p.n → (p.parts j).massFraction = if j = i then 1 else 0
  weight : p.mweight = p.mw i

/-- A separator as it is set up, for fluids like `c`. -/
structure SepReady (c : Poly K) (s : Separator K) : Prop where
  ports : 3 ≤ s.ports
  index : ∀ k, k < s.types → s.index k < c.n
  distinct : ∀ j k, j < s.types → k < s.types → s.index j = s.index k → j = k
  port : ∀ k, k < s.types → 2 ≤ s.port k ∧ s.port k < s.ports
  fraction : ∀ k, k < s.types → 0 ≤ s.fraction k ∧ s.fraction k ≤ 1
  fluids : ∀ k, k < s.types → SameFluids c (s.fluid k) ∧ Pure (s.fluid k) (s.index k)
  internal : SameFluids c s.internal
  thru : ∀ k, k < s.types → 0 ≤ s.thru k

/-- A proper mixture upstream. -/
structure Upstream (c out : Poly K) : Prop where
  weights : GoodWeights out
  fluids : SameFluids c out
  mixed : Mixed out
  moles : ∑ i ∈ range out.n, (out.parts i).moleFraction = 1

/-- One pass of the separator: pressures, flux and the fluid upstream. -/
structure SepPass (K : Type _) where
  p0 : K
  p1 : K
  ground0 : Bool
  ground1 : Bool
  flux : K
  out : Poly K

/-- The pass: `step`, `computeFlows`, `transportFlows`. -/
def passSep (th : Thermo K) (a : SepPass K) (s : Separator K) : SepOutcome K :=
  transportSep th (upstream a.ground0 a.ground1 a.flux) a.out
    (computeSep a.flux (fun i => (a.out.parts i).moleFraction) (stepSep a.p0 a.p1 s))

/-- Many passes, with the calls of each. -/
def passesSep (th : Thermo K) : List (SepPass K) → Separator K → Option (List (List (Nat × Collect K)) × Separator K)
  | [], s => some ([], s)
  | a :: as, s =>
    match passSep th a s with
    | .done calls t =>
      match passesSep th as t with
      | some (cs, u) => some (calls :: cs, u)
      | none => none
    | _ => none

/-- No amount of a pass is so small that the code drops it: of the flux, of what is left of it, of what leaves the
exits. -/
structure Sizable (a : SepPass K) (s : Separator K) : Prop where
  flux : a.flux = 0 ∨ dblEps < |a.flux|
  left : a.flux = 0 ∨ dblEps < |a.flux| * (1 - ∑ k ∈ range s.types, s.fraction k * (a.out.parts (s.index k)).moleFraction)
  exits : ∀ k, k < s.types → s.thru k = 0 ∨ dblEps < s.thru k * (s.fluid k).mweight

end Gunns.Fluid
